import Verif.Cam.Props8
import Verif.Cam.Props25

/-!
# C192: fillets between a line and an arc and between two arcs
-/

set_option linter.unusedSectionVars false

namespace Verif.Cam
open Verif Verif.Geom PyFloat PyTrig

/-! ## Specification -/

/-- Specification: the point `s` ahead of `v` in the direction `u` and `d` to the left of it. -/
def beside (v u : P ℝ) (s d : ℝ) : P ℝ := ⟨v.x + s * u.x - d * u.y, v.y + s * u.y + d * u.x⟩

/-- Specification: the direction in which the arc passes its point `q`: the radius, turned by a quarter turn in the direction of the arc. -/
noncomputable def passDir (a : Arc ℝ) (q : P ℝ) : P ℝ :=
  if a.angle < 0 then ⟨q.y - a.center.y, -(q.x - a.center.x)⟩ else ⟨-(q.y - a.center.y), q.x - a.center.x⟩

/-- Specification: the side of the direction `u` to which `w` points: `1` for left (or straight), `-1` for right. -/
noncomputable def turnSide (u w : P ℝ) : ℝ := if 0 ≤ crossOf u w then 1 else -1

/-- Specification: a line coming to `v` in the direction `u`, `L` long. -/
def lineTo (v u : P ℝ) (L : ℝ) : Line ℝ := ⟨along v u (-L), v⟩

/-! ## Directions -/

theorem passDir_unit (a : Arc ℝ) (q : P ℝ) (r : ℝ) (hr : 0 < r) (h : sqDist q a.center = r ^ 2) :
    P.fromPolar (one : ℝ) (normalizeAngle ((if a.isClockwise then a.center.sub q else q.sub a.center).angle +. pi /. ofInt 2) zero)
      = ⟨(passDir a q).x / r, (passDir a q).y / r⟩ := by
  set v := (if a.isClockwise then a.center.sub q else q.sub a.center) with hv
  have hvv : v.x ^ 2 + v.y ^ 2 = r ^ 2 := by
    rw [← h, hv]
    cases a.isClockwise <;> simp [P.sub, sqDist] <;> ring
  obtain ⟨e1, e2⟩ := polar_atan2 v r hr.le hvv
  have hpi : (v.angle +. pi /. ofInt 2 : ℝ) = v.angle + Real.pi / 2 := by simp
  have hc := cos_normalize (v.angle +. pi /. ofInt 2) zero
  rw [hpi] at hc ⊢
  rw [Real.cos_add_pi_div_two, Real.sin_add_pi_div_two] at hc
  have hpd : passDir a q = ⟨-v.y, v.x⟩ := by
    unfold passDir
    rw [hv]
    unfold Arc.isClockwise
    by_cases hn : a.angle < 0
    · simp [hn, P.sub]
    · simp [hn, P.sub]
  rw [hpd]
  unfold P.fromPolar
  apply P.ext_real
  · simp only [real_mul, real_cos, real_one, hc.1]
    rw [← e2]; field_simp
  · simp only [real_mul, real_sin, real_one, hc.2]
    rw [← e1]; field_simp

theorem whichSide_unit (eps : ℝ) (v u w : P ℝ) (m k s : ℝ) (hk : m < k) (hs : 0 < s) :
    (ofInt (Line.whichSide eps ⟨along v u m, along v u k⟩ ((⟨w.x / s, w.y / s⟩ : P ℝ).add (along v u k))) : ℝ) = turnSide u w := by
  unfold Line.whichSide turnSide
  have e : ((along v u k).sub (along v u m)).cross (((⟨w.x / s, w.y / s⟩ : P ℝ).add (along v u k)).sub (along v u m)) = (k - m) / s * crossOf u w := by
    simp [along, P.sub, P.add, P.cross, crossOf]; field_simp; ring
  simp only [Bool.false_and, Bool.false_eq_true, if_false, e, real_le, real_zero, decide_eq_true_eq]
  have hp : 0 < (k - m) / s := div_pos (by linarith) hs
  by_cases hc : 0 ≤ crossOf u w
  · rw [if_pos hc, if_pos (mul_nonneg hp.le hc)]; simp
  · rw [if_neg hc, if_neg (by push Not at hc ⊢; exact mul_neg_of_pos_of_neg hp hc)]; simp

theorem turnSide_sq (u w : P ℝ) : turnSide u w = 1 ∨ turnSide u w = -1 := by
  unfold turnSide; split <;> simp

/-- The projection of a point beside a line onto the whole line. -/
theorem foot_unit {eps : ℝ} (heps : 0 < eps) (p u : P ℝ) (hu : UnitVec u) (m k s d : ℝ) (hl : eps ≤ k - m) :
    Line.normalProjectionPoint eps ⟨along p u m, along p u k⟩ (beside p u s d) = along p u s := by
  have hkm : 0 < k - m := by linarith
  unfold UnitVec at hu
  have h0 : (((along p u k).sub (along p u m)).x ^ 2 + ((along p u k).sub (along p u m)).y ^ 2) = (k - m) ^ 2 := by
    simp only [along, P.sub, real_sub]; linear_combination (k - m) ^ 2 * hu
  have h1 : ((beside p u s d).sub (along p u m)).x * ((along p u k).sub (along p u m)).x + ((beside p u s d).sub (along p u m)).y * ((along p u k).sub (along p u m)).y = (s - m) * (k - m) := by
    simp only [beside, along, P.sub, real_sub]; linear_combination (s - m) * (k - m) * hu
  unfold Line.normalProjectionPoint
  dsimp only
  rw [normProj_real, h0, h1, if_neg (not_lt.2 (pow_le_pow_left₀ heps.le hl 2))]
  simp only [Bool.false_and, Bool.false_eq_true, if_false]
  apply P.ext_real <;> simp only [along, P.add, P.sub, P.mul, real_add, real_sub, real_mul] <;> field_simp <;> ring

theorem besides (v u : P ℝ) (hu : UnitVec u) (q : P ℝ) : q = beside v u (dotOf u ⟨q.x - v.x, q.y - v.y⟩) (crossOf u ⟨q.x - v.x, q.y - v.y⟩) := by
  unfold UnitVec at hu
  apply P.ext_real <;> simp only [beside, dotOf, crossOf]
  · linear_combination -(q.x - v.x) * hu
  · linear_combination -(q.y - v.y) * hu

theorem sqDist_beside (v u : P ℝ) (hu : UnitVec u) (s d s' d' : ℝ) : sqDist (beside v u s d) (beside v u s' d') = (s - s') ^ 2 + (d - d') ^ 2 := by
  unfold UnitVec at hu
  simp only [sqDist, beside]
  linear_combination ((s - s') ^ 2 + (d - d') ^ 2) * hu

/-! ## A line and an arc -/

/-- The corner between a line and the arc after it (`geom/fillet.py:272-296`, when nothing is reversed): the points on the line and on the arc and the centre. -/
noncomputable def lineArcParts (eps : ℝ) (line : Line ℝ) (arc : Arc ℝ) (r : ℝ) : Option (P ℝ × P ℝ × P ℝ) :=
  let side := line.whichSideAngle eps arc.startTangent
  let outer := (0 < side && arc.isClockwise) || (side < 0 && !arc.isClockwise)
  let h := if outer then arc.radius +. r else arc.radius -. r
  let alpha1 := if outer then line.angle +. pi else line.angle
  let line3 := line.offset eps (r *. ofInt side)
  let p5 := line3.normalProjectionPoint eps arc.center
  let b := p5.distance arc.center
  let a2 := h *. h -. b *. b
  if a2 <. zero then none
  else
    let c := (Line.fromPolar p5 (sqrt a2) alpha1).p2
    let alpha2 := PyFloat.abs (arc.center.angle2 eps arc.p1 c)
    let fp1 := line.normalProjectionPoint eps c true
    match arc.pointAtAngle? alpha2 true with
    | none => none
    | some fp2 => if fp1.ne eps fp2 && floatEq eps (c.distance fp1) (c.distance fp2) then some (fp1, fp2, c) else none

theorem filletLineArc_parts (eps : ℝ) (line : Line ℝ) (arc : Arc ℝ) (r : ℝ) :
    filletLineArc eps line arc r =
      if (arc.p2.sub line.p1).length <. eps then
        (lineArcParts eps line.reversed arc.reversed r).map fun q => Arc.fromTwoPointsAndCenter eps q.2.1 q.1 q.2.2
      else (lineArcParts eps line arc r).map fun q => Arc.fromTwoPointsAndCenter eps q.1 q.2.1 q.2.2 := by
  unfold filletLineArc lineArcParts
  by_cases h : ((arc.p2.sub line.p1).length <. eps) = true
  · simp only [h, if_true]
    split <;> split
    all_goals first | rfl | (generalize Arc.pointAtAngle? (K := ℝ) _ _ _ = o; cases o <;> first | rfl | (dsimp only; split <;> rfl))
  · simp only [h, Bool.false_eq_true, if_false]
    split <;> split
    all_goals first | rfl | (generalize Arc.pointAtAngle? (K := ℝ) _ _ _ = o; cases o <;> first | rfl | (dsimp only; split <;> rfl))

/-- Specification: the distance of the centre of a circle of radius `r` touching the arc on the given side from the centre of the arc. -/
noncomputable def reach (a : Arc ℝ) (r side : ℝ) : ℝ := if side = (if a.angle < 0 then -1 else 1) then a.radius - r else a.radius + r

/-- The computed centre: `r` beside the line, as far from the centre of the arc as `reach` says. -/
theorem lineArcParts_eq {eps r : ℝ} (heps : 0 < eps) (hr : eps ≤ r) (v u : P ℝ) (hu : UnitVec u) (L : ℝ) (hL : eps ≤ L) (a : Arc ℝ) (hR : 0 < a.radius)
    (h1 : sqDist a.p1 a.center = a.radius ^ 2) :
    let σ := turnSide u (passDir a a.p1)
    let t := dotOf u ⟨a.center.x - v.x, a.center.y - v.y⟩
    let n := crossOf u ⟨a.center.x - v.x, a.center.y - v.y⟩
    let h := reach a r σ
    let k := Real.sqrt (h ^ 2 - (n - r * σ) ^ 2)
    let c := beside v u (if σ = (if a.angle < 0 then -1 else 1) then t + k else t - k) (r * σ)
    lineArcParts eps (lineTo v u L) a r =
      if h ^ 2 - (n - r * σ) ^ 2 < 0 then none
      else match a.pointAtAngle? |a.center.angle2 eps a.p1 c| true with
        | none => none
        | some q => let p := (lineTo v u L).normalProjectionPoint eps c true
          if p.ne eps q && floatEq eps (c.distance p) (c.distance q) then some (p, q, c) else none := by
  intro σ t n h k c
  have hv0 : along v u 0 = v := by apply P.ext_real <;> simp [along]
  have hline : lineTo v u L = ⟨along v u (-L), along v u 0⟩ := by rw [hv0]; rfl
  set S := (lineTo v u L).whichSideAngle eps a.startTangent with hS
  have hside : (ofInt S : ℝ) = σ := by
    have := passDir_unit a a.p1 a.radius hR h1
    rw [hS]
    unfold Line.whichSideAngle Arc.startTangent
    dsimp only
    rw [this, hline]
    exact whichSide_unit eps v u _ (-L) 0 a.radius (by linarith) hR
  have hcases : (S = 1 ∧ σ = 1) ∨ (S = -1 ∧ σ = -1) := by
    have h2 : S = 1 ∨ S = -1 := by
      rw [hS]; unfold Line.whichSideAngle Line.whichSide
      simp only [Bool.false_and, Bool.false_eq_true, if_false]
      split <;> simp
    rcases h2 with h2 | h2 <;> rw [h2] at hside <;> simp at hside
    · exact .inl ⟨h2, hside.symm⟩
    · exact .inr ⟨h2, hside.symm⟩
  have hsq : |r * σ| = r := by
    rcases turnSide_sq u (passDir a a.p1) with g | g <;> simp [σ, g] <;> linarith
  have hout : ((decide (0 < S) && a.isClockwise) || (decide (S < 0) && !a.isClockwise)) = !decide (σ = (if a.angle < 0 then -1 else 1)) := by
    unfold Arc.isClockwise
    simp only [real_lt, real_zero]
    rcases hcases with ⟨g1, g2⟩ | ⟨g1, g2⟩ <;> rw [g1, g2] <;> by_cases hn : a.angle < 0 <;> norm_num [hn]
  have hcen := besides v u hu a.center
  have hoff : (lineTo v u L).offset eps (r * σ) = ⟨along (beside v u 0 (r * σ)) u (-L), along (beside v u 0 (r * σ)) u 0⟩ := by
    rw [hline, offset_unit v u hu (-L) 0 (r * σ) (by rw [hsq]; exact hr) (by linarith) (by linarith)]
    congr 1 <;> apply P.ext_real <;> simp [along, beside]
  have hcen' : a.center = beside (beside v u 0 (r * σ)) u t (n - r * σ) := by
    rw [hcen]
    unfold UnitVec at hu
    apply P.ext_real <;> simp only [beside] <;> simp only [t, n] <;> ring
  have hfoot : ((lineTo v u L).offset eps (r * σ)).normalProjectionPoint eps a.center = beside v u t (r * σ) := by
    rw [hoff]
    nth_rewrite 1 [hcen']
    rw [foot_unit heps _ u hu (-L) 0 t (n - r * σ) (by linarith)]
    apply P.ext_real <;> simp [along, beside] <;> ring
  have hb : (beside v u t (r * σ)).distance a.center * (beside v u t (r * σ)).distance a.center = (n - r * σ) ^ 2 := by
    rw [distance_real, Real.mul_self_sqrt (sqDist_nonneg _ _)]
    nth_rewrite 1 [hcen]
    rw [sqDist_beside v u hu]; simp only [t, n]; ring
  have hang : Real.cos (lineTo v u L).angle = u.x ∧ Real.sin (lineTo v u L).angle = u.y := by
    have hL0 : 0 < L := by linarith
    have e : ((lineTo v u L).p2.sub (lineTo v u L).p1) = ⟨L * u.x, L * u.y⟩ := by
      apply P.ext_real <;> simp [lineTo, along, P.sub]
    have := polar_atan2 ⟨L * u.x, L * u.y⟩ L hL0.le (by unfold UnitVec at hu; simp only; linear_combination L ^ 2 * hu)
    unfold Line.angle
    rw [e]
    exact ⟨mul_left_cancel₀ hL0.ne' this.1, mul_left_cancel₀ hL0.ne' this.2⟩
  unfold lineArcParts
  dsimp only
  rw [← hS, hout, hside]
  simp only [real_mul, real_sub, real_add, real_pi, real_lt, real_zero, decide_eq_true_eq, real_sqrt, real_abs]
  rw [hfoot, hb]
  have hh : (if (!decide (σ = if a.angle < 0 then -1 else 1)) = true then a.radius + r else a.radius - r) = h := by
    simp only [h, reach]
    by_cases g : σ = if a.angle < 0 then -1 else 1 <;> simp [g]
  rw [hh, ← pow_two]
  have hc : (Line.fromPolar (beside v u t (r * σ)) (Real.sqrt (h ^ 2 - (n - r * σ) ^ 2))
      (if (!decide (σ = if a.angle < 0 then -1 else 1)) = true then (lineTo v u L).angle + Real.pi else (lineTo v u L).angle)).p2 = c := by
    simp only [c, k, Line.fromPolar, P.fromPolar]
    by_cases g : σ = if a.angle < 0 then -1 else 1
    · simp only [g, decide_true, Bool.not_true, Bool.false_eq_true, if_false, if_true]
      apply P.ext_real <;> simp only [P.add, real_add, real_mul, real_cos, real_sin, hang.1, hang.2, beside] <;> ring
    · simp only [g, decide_false, Bool.not_false, if_false, if_true]
      apply P.ext_real <;> simp only [P.add, real_add, real_mul, real_cos, real_sin, Real.cos_add_pi, Real.sin_add_pi, hang.1, hang.2, beside] <;> ring
  rw [hc]

/-- Specification: the circle of radius `r` about `c` touches the line through `v` in the direction `u` and the circle of the arc, both on the given side. -/
def TouchesBoth (v u : P ℝ) (a : Arc ℝ) (r side : ℝ) (c : P ℝ) : Prop :=
  crossOf u ⟨c.x - v.x, c.y - v.y⟩ = r * side ∧ sqDist c a.center = reach a r side ^ 2

theorem cross_beside (v u : P ℝ) (hu : UnitVec u) (s d : ℝ) :
    crossOf u ⟨(beside v u s d).x - v.x, (beside v u s d).y - v.y⟩ = d ∧ dotOf u ⟨(beside v u s d).x - v.x, (beside v u s d).y - v.y⟩ = s := by
  unfold UnitVec at hu
  constructor
  · simp only [crossOf, beside]; linear_combination d * hu
  · simp only [dotOf, beside]; linear_combination s * hu

theorem pointAtAngle?_circle (a : Arc ℝ) (h : a.OnCircle) (t : ℝ) (q : P ℝ) (hq : a.pointAtAngle? t true = some q) : sqDist q a.center = a.radius ^ 2 := by
  have e : a.pointAtAngle? t true = none ∨ a.pointAtAngle? t true = some (a.pointAtAngle t) := by
    unfold Arc.pointAtAngle? Arc.pointAtAngle
    repeat' split
    all_goals simp_all
  rcases e with e | e
  · rw [e] at hq; cases hq
  · rw [e] at hq
    cases hq
    by_cases h0 : t ≤ 0
    · have : a.pointAtAngle t = a.p1 := by unfold Arc.pointAtAngle; simp [h0]
      rw [this]; exact h.2.1
    · by_cases h1 : |a.angle| ≤ t
      · have : a.pointAtAngle t = a.p2 := by unfold Arc.pointAtAngle; simp [h0, h1]
        rw [this]; exact h.2.2
      · rw [pointAtAngle_real a h t (not_le.1 h0) (not_le.1 h1), sqDist_rotAbout]; exact h.2.1

/-- What the corner between a line and an arc consists of. -/
theorem lineArcParts_sound {eps r : ℝ} (heps : 0 < eps) (hr : eps ≤ r) (v u : P ℝ) (hu : UnitVec u) (L : ℝ) (hL : eps ≤ L) (a : Arc ℝ) (hR : 0 < a.radius)
    (ha : a.OnCircle) {p q c : P ℝ} (h : lineArcParts eps (lineTo v u L) a r = some (p, q, c)) :
    TouchesBoth v u a r (turnSide u (passDir a a.p1)) c ∧ sqDist q a.center = a.radius ^ 2 ∧
      (∃ s, 0 ≤ s ∧ s ≤ L ∧ p = along v u (-s) ∧ (0 < s → s < L → dotOf u ⟨c.x - p.x, c.y - p.y⟩ = 0 ∧ sqDist p c = r ^ 2)) ∧
      eps ^ 2 ≤ sqDist p q ∧ |Real.sqrt (sqDist c p) - Real.sqrt (sqDist c q)| < eps := by
  rw [lineArcParts_eq heps hr v u hu L hL a hR ha.2.1] at h
  dsimp only at h
  set σ := turnSide u (passDir a a.p1) with hσ
  set t := dotOf u ⟨a.center.x - v.x, a.center.y - v.y⟩ with ht
  set n := crossOf u ⟨a.center.x - v.x, a.center.y - v.y⟩ with hn
  set H := reach a r σ with hH
  have hcen := besides v u hu a.center
  rw [← ht, ← hn] at hcen
  split at h
  · cases h
  rename_i hk
  push Not at hk
  have hks := Real.sq_sqrt hk
  set k := Real.sqrt (H ^ 2 - (n - r * σ) ^ 2) with hkd
  set S := (if σ = (if a.angle < 0 then -1 else 1) then t + k else t - k) with hS
  have hSk : (S - t) ^ 2 = k ^ 2 := by rw [hS]; generalize (if a.angle < 0 then (-1 : ℝ) else 1) = z; split <;> ring
  split at h
  · cases h
  rename_i q' hq'
  split at h
  swap
  · cases h
  rename_i hc
  simp only [Option.some.injEq, Prod.mk.injEq] at h
  obtain ⟨rfl, rfl, rfl⟩ := h
  rw [Bool.and_eq_true, floatEq_iff, distance_real, distance_real] at hc
  have hne : eps ^ 2 ≤ sqDist ((lineTo v u L).normalProjectionPoint eps (beside v u S (r * σ)) true) q' := by
    rw [← eq_false_iff]; exact (by simpa [P.ne] using hc.1 : P.almostEq eps _ q' = false)
  refine ⟨⟨(cross_beside v u hu _ _).1, ?_⟩, pointAtAngle?_circle a ha _ _ hq', ?_, hne, hc.2⟩
  · nth_rewrite 1 [hcen]
    rw [sqDist_beside v u hu, hSk, hks, ← hH]; ring
  · have hv0 : along v u 0 = v := by apply P.ext_real <;> simp [along]
    have hline : lineTo v u L = ⟨along v u (-L), along v u 0⟩ := by rw [hv0]; rfl
    obtain ⟨g1, g2, g3⟩ := project_unit heps v u hu (-L) 0 S (r * σ) (by linarith) (beside v u S (r * σ)) rfl
    rw [hline]
    rcases le_or_gt S (-L) with h1 | h1
    · exact ⟨L, by linarith, le_rfl, g2 h1, fun _ h => absurd h (lt_irrefl _)⟩
    · rcases le_or_gt 0 S with h2 | h2
      · exact ⟨0, le_rfl, by linarith, by rw [g3 h2]; simp, fun h _ => absurd h (lt_irrefl _)⟩
      · refine ⟨-S, by linarith, by linarith, by rw [g1 h1.le h2.le]; simp, fun _ _ => ?_⟩
        rw [g1 h1.le h2.le]
        have hss : along v u S = beside v u S 0 := by apply P.ext_real <;> simp [along, beside]
        rw [hss, sqDist_beside v u hu]
        constructor
        · simp only [dotOf, beside]; ring
        · rcases turnSide_sq u (passDir a a.p1) with g | g <;> rw [← hσ] at g <;> rw [g] <;> ring

/-- **C192**, a line and the arc after it: whatever fillet is returned, the circle it is on touches the line and the circle of the arc on the side to which the arc turns; it begins on
the line and ends on the circle of the arc; where it begins inside the line it begins at right angles to it and has the radius asked for, and its end is as far from its centre, up to
the tolerance. Missing: that it ends within the arc and touches it there (see `C192_line_arc_fits`); fillets whose start is moved to an end of the line can have another radius; arcs
that end where the line starts (`C192_refuted_closed`). -/
theorem C192_line_arc_partial {eps r : ℝ} (heps : 0 < eps) (hr : eps ≤ r) (v u : P ℝ) (hu : UnitVec u) (L : ℝ) (hL : eps ≤ L) (a : Arc ℝ) (hR : 0 < a.radius)
    (ha : a.OnCircle) (hopen : eps ^ 2 ≤ sqDist a.p2 (along v u (-L))) {f : Arc ℝ}
    (h : createFilletArc eps (.line (lineTo v u L)) (.arc a) r = .ok (some f)) :
    TouchesBoth v u a r (turnSide u (passDir a a.p1)) f.center ∧ sqDist f.p2 a.center = a.radius ^ 2 ∧ f.radius = Real.sqrt (sqDist f.p1 f.center) ∧
      (∃ s, 0 ≤ s ∧ s ≤ L ∧ f.p1 = along v u (-s) ∧
        (0 < s → s < L → dotOf u ⟨f.center.x - f.p1.x, f.center.y - f.p1.y⟩ = 0 ∧ f.radius = r)) ∧
      |f.radius - Real.sqrt (sqDist f.p2 f.center)| < eps := by
  have h' : filletLineArc eps (lineTo v u L) a r = some f := by simpa [createFilletArc] using h
  rw [filletLineArc_parts, if_neg] at h'
  · rw [Option.map_eq_some_iff] at h'
    obtain ⟨⟨p, q, c⟩, hp, rfl⟩ := h'
    obtain ⟨g1, g2, ⟨s, g3, g4, g5, g6⟩, g7, g8⟩ := lineArcParts_sound heps hr v u hu L hL a hR ha hp
    have hrad : (Arc.fromTwoPointsAndCenter eps p q c).radius = Real.sqrt (sqDist p c) := by
      simp only [Arc.fromTwoPointsAndCenter, distance_real]
    refine ⟨g1, g2, hrad, ⟨s, g3, g4, g5, fun k1 k2 => ⟨(g6 k1 k2).1, ?_⟩⟩, ?_⟩
    · rw [hrad, (g6 k1 k2).2, Real.sqrt_sq (by linarith)]
    · rw [hrad, sqDist_comm p c]
      show |_ - Real.sqrt (sqDist q c)| < _
      rw [sqDist_comm q c]; exact g8
  · have : (a.p2.sub (lineTo v u L).p1).length = Real.sqrt (sqDist a.p2 (along v u (-L))) := by
      simp [P.length, P.sub, lineTo, sqDist]
    rw [this]
    simp only [real_lt, decide_eq_true_eq, not_lt]
    exact Real.le_sqrt_of_sq_le hopen

/-! ### Fillets that fit -/

/-- Specification: the point of the arc after the angle `θ`. -/
noncomputable def arcPt (a : Arc ℝ) (θ : ℝ) : P ℝ := rotAbout a.center (if a.angle < 0 then -θ else θ) a.p1

/-- Specification: a fillet of radius `r` fits between the line to `v` and the arc: it touches the line at the distance `s` before its end and the arc after the angle `θ`. Of the two
circles that touch both on this side it is the one ahead of the centre of the arc (inside its circle), or behind it (outside). -/
structure LineArcFit (eps r : ℝ) (v u : P ℝ) (L : ℝ) (a : Arc ℝ) (s θ : ℝ) : Prop where
  onLine : 0 ≤ s ∧ s ≤ L
  onArc : 0 < θ ∧ θ ≤ |a.angle| ∧ θ < Real.pi
  positive : 0 < reach a r (turnSide u (passDir a a.p1))
  touches : ∀ c, c = beside v u (-s) (r * turnSide u (passDir a a.p1)) →
    c.x - a.center.x = reach a r (turnSide u (passDir a a.p1)) / a.radius * ((arcPt a θ).x - a.center.x) ∧
    c.y - a.center.y = reach a r (turnSide u (passDir a a.p1)) / a.radius * ((arcPt a θ).y - a.center.y)
  near : if turnSide u (passDir a a.p1) = (if a.angle < 0 then -1 else 1) then dotOf u ⟨a.center.x - v.x, a.center.y - v.y⟩ ≤ -s
    else -s ≤ dotOf u ⟨a.center.x - v.x, a.center.y - v.y⟩
  apart : eps ^ 2 ≤ sqDist a.p1 (beside v u (-s) (r * turnSide u (passDir a a.p1)))
  apart' : eps ^ 2 ≤ sqDist (along v u (-s)) (arcPt a θ)

theorem pointAtAngle?_sweeps (a : Arc ℝ) (h : a.Sweeps) (t : ℝ) (h0 : 0 < t) (h1 : t ≤ |a.angle|) : a.pointAtAngle? t true = some (arcPt a t) := by
  rcases h1.lt_or_eq with h1 | h1
  · rw [arcPt, ← pointAtAngle_real a h.1 t h0 h1]
    unfold Arc.pointAtAngle? Arc.pointAtAngle
    have : ¬ (t < 0) := not_lt.2 h0.le
    have g : ¬ (|a.angle| < t) := not_lt.2 h1.le
    simp [this, g, not_le.2 h0, not_le.2 h1]
  · have e : arcPt a t = a.p2 := by
      rw [arcPt, ← h.2]
      congr 1
      by_cases hn : a.angle < 0
      · rw [if_pos hn, h1, abs_of_neg hn]; ring
      · rw [if_neg hn, h1, abs_of_nonneg (not_lt.1 hn)]
    rw [e]
    unfold Arc.pointAtAngle?
    have : ¬ (t < 0) := not_lt.2 h0.le
    simp [this, not_le.2 h0, h1.ge, not_lt.2 h1.ge, h1]
    intro h; rw [h, abs_zero] at h1; linarith

theorem angle_to (eps : ℝ) (a : Arc ℝ) (hR : 0 < a.radius) (h1 : sqDist a.p1 a.center = a.radius ^ 2) (c : P ℝ) (m φ : ℝ) (hm : 0 < m) (hφ : |φ| < Real.pi)
    (hx : c.x - a.center.x = m * ((rotAbout a.center φ a.p1).x - a.center.x)) (hy : c.y - a.center.y = m * ((rotAbout a.center φ a.p1).y - a.center.y))
    (hfar : eps ^ 2 ≤ sqDist a.p1 c) : a.center.angle2 eps a.p1 c = φ := by
  rw [angle2_real eps _ _ _ hfar, real_atan2, hx, hy]
  have hc : (⟨(a.p1.x - a.center.x) * (m * ((rotAbout a.center φ a.p1).x - a.center.x)) + (a.p1.y - a.center.y) * (m * ((rotAbout a.center φ a.p1).y - a.center.y)),
      (a.p1.x - a.center.x) * (m * ((rotAbout a.center φ a.p1).y - a.center.y)) - (m * ((rotAbout a.center φ a.p1).x - a.center.x)) * (a.p1.y - a.center.y)⟩ : ℂ) =
      ((m * a.radius ^ 2 : ℝ) : ℂ) * (Complex.cos φ + Complex.sin φ * Complex.I) := by
    simp only [sqDist] at h1
    apply Complex.ext
    · simp [rotAbout, ← Complex.ofReal_cos, ← Complex.ofReal_sin, -Complex.ofReal_pow]
      linear_combination m * Real.cos φ * h1
    · simp [rotAbout, ← Complex.ofReal_cos, ← Complex.ofReal_sin, -Complex.ofReal_pow]
      linear_combination m * Real.sin φ * h1
  rw [hc, Complex.arg_mul_cos_add_sin_mul_I (by positivity) ⟨by linarith [(abs_lt.1 hφ).1], by linarith [(abs_lt.1 hφ).2]⟩]

theorem lineArcParts_fit {eps r : ℝ} (heps : 0 < eps) (hr : eps ≤ r) (v u : P ℝ) (hu : UnitVec u) (L : ℝ) (hL : eps ≤ L) (a : Arc ℝ) (hR : 0 < a.radius)
    (ha : a.Sweeps) {s θ : ℝ} (hf : LineArcFit eps r v u L a s θ) :
    lineArcParts eps (lineTo v u L) a r = some (along v u (-s), arcPt a θ, beside v u (-s) (r * turnSide u (passDir a a.p1))) ∧
      sqDist (arcPt a θ) (beside v u (-s) (r * turnSide u (passDir a a.p1))) = r ^ 2 := by
  rw [lineArcParts_eq heps hr v u hu L hL a hR ha.1.2.1]
  dsimp only
  obtain ⟨⟨s0, s1⟩, ⟨t0, t1, t2⟩, hH, htch, hnear, hap, hap'⟩ := hf
  have hσ2 := turnSide_sq u (passDir a a.p1)
  set σ := turnSide u (passDir a a.p1) with hσ
  set t := dotOf u ⟨a.center.x - v.x, a.center.y - v.y⟩ with ht
  set n := crossOf u ⟨a.center.x - v.x, a.center.y - v.y⟩ with hn
  set H := reach a r σ with hHd
  have hcen := besides v u hu a.center
  rw [← ht, ← hn] at hcen
  obtain ⟨hx, hy⟩ := htch _ rfl
  set c := beside v u (-s) (r * σ) with hc
  have hTc : sqDist (arcPt a θ) a.center = a.radius ^ 2 := by rw [arcPt, sqDist_rotAbout]; exact ha.1.2.1
  have hm : H / a.radius * a.radius = H := by field_simp
  have hcH : sqDist c a.center = H ^ 2 := by
    unfold sqDist at hTc ⊢
    rw [hx, hy]
    linear_combination (H / a.radius) ^ 2 * hTc + (H / a.radius * a.radius + H) * hm
  have hkk : H ^ 2 - (n - r * σ) ^ 2 = (-s - t) ^ 2 := by
    rw [← hcH, hc, hcen, sqDist_beside v u hu]; ring
  rw [hkk, if_neg (not_lt.2 (sq_nonneg _)), Real.sqrt_sq_eq_abs]
  have hSe : (if σ = (if a.angle < 0 then -1 else 1) then t + |(-s - t)| else t - |(-s - t)|) = -s := by
    revert hnear
    generalize (if a.angle < 0 then (-1 : ℝ) else 1) = z
    split
    · intro g; rw [abs_of_nonneg (by linarith)]; ring
    · intro g; rw [abs_of_nonpos (by linarith)]; ring
  rw [hSe, ← hc]
  have hang : |a.center.angle2 eps a.p1 c| = θ := by
    rw [angle_to eps a hR ha.1.2.1 c (H / a.radius) (if a.angle < 0 then -θ else θ) (by positivity) (by split <;> simp [abs_of_pos t0, t2]) hx hy hap]
    split <;> simp [abs_of_pos t0]
  rw [hang, pointAtAngle?_sweeps a ha θ t0 t1]
  dsimp only
  have hv0 : along v u 0 = v := by apply P.ext_real <;> simp [along]
  have hline : lineTo v u L = ⟨along v u (-L), along v u 0⟩ := by rw [hv0]; rfl
  have hproj : (lineTo v u L).normalProjectionPoint eps c true = along v u (-s) := by
    rw [hline]
    exact (project_unit heps v u hu (-L) 0 (-s) (r * σ) (by linarith) c (by rw [hc]; rfl)).1 (by linarith) (by linarith)
  have d1 : sqDist c (along v u (-s)) = r ^ 2 := by
    have : along v u (-s) = beside v u (-s) 0 := by apply P.ext_real <;> simp [along, beside]
    rw [this, hc, sqDist_beside v u hu]
    rcases hσ2 with g | g <;> rw [g] <;> ring
  have hHR : (H - a.radius) ^ 2 = r ^ 2 := by
    rw [hHd]; unfold reach
    generalize (if a.angle < 0 then (-1 : ℝ) else 1) = z
    split <;> ring
  have d2 : sqDist c (arcPt a θ) = r ^ 2 := by
    rw [← hHR]
    unfold sqDist at hTc ⊢
    have ex : c.x - (arcPt a θ).x = (H / a.radius - 1) * ((arcPt a θ).x - a.center.x) := by linear_combination hx
    have ey : c.y - (arcPt a θ).y = (H / a.radius - 1) * ((arcPt a θ).y - a.center.y) := by linear_combination hy
    rw [ex, ey]
    linear_combination (H / a.radius - 1) ^ 2 * hTc + ((H / a.radius - 1) * a.radius + (H - a.radius)) * hm
  refine ⟨?_, by rw [sqDist_comm]; exact d2⟩
  rw [hproj, distance_real, distance_real, d1, d2]
  have e1 : P.ne eps (along v u (-s)) (arcPt a θ) = true := by
    have := (eq_false_iff eps _ _).2 hap'
    unfold P.eq at this
    simp [P.ne, this]
  have e2 : floatEq eps (Real.sqrt (r ^ 2)) (Real.sqrt (r ^ 2)) = true := by rw [floatEq_iff]; simpa using heps
  rw [e1, e2]; rfl

theorem far_iff {eps : ℝ} (heps : 0 < eps) (p q : P ℝ) : ((p.sub q).length <. eps) = true ↔ sqDist p q < eps ^ 2 := by
  have : (p.sub q).length = Real.sqrt (sqDist p q) := by simp [P.length, P.sub, sqDist]
  rw [this]
  simp only [real_lt, decide_eq_true_eq]
  rw [Real.sqrt_lt' heps]

theorem threePoint_sweeps {eps r : ℝ} (heps : 0 < eps) (hr : eps ≤ r) {p q c : P ℝ} (hp : sqDist p c = r ^ 2) (hq : sqDist q c = r ^ 2) (hpq : eps ^ 2 ≤ sqDist p q) :
    (Arc.fromTwoPointsAndCenter eps p q c).Sweeps ∧ (Arc.fromTwoPointsAndCenter eps p q c).radius = r ∧ |(Arc.fromTwoPointsAndCenter eps p q c).angle| ≤ Real.pi := by
  have hr0 : 0 < r := by linarith
  have e : Arc.fromTwoPointsAndCenter eps p q c = ⟨p, q, r, c.angle2 eps p q, c⟩ := by
    simp only [Arc.fromTwoPointsAndCenter, distance_real, hp, Real.sqrt_sq hr0.le, Bool.false_eq_true, if_false]
  rw [e]
  refine ⟨⟨⟨hr0.le, hp, hq⟩, angle2_rotates eps c p q r hr0 hp hq hpq⟩, rfl, ?_⟩
  simp only
  rw [angle2_real eps _ _ _ hpq, abs_le]
  have := atan2_range ((p.x - c.x) * (q.y - c.y) - (q.x - c.x) * (p.y - c.y)) ((p.x - c.x) * (q.x - c.x) + (p.y - c.y) * (q.y - c.y))
  exact ⟨this.1.le, this.2⟩

theorem reversed_sweeps (a : Arc ℝ) (h : a.Sweeps) : a.reversed.Sweeps := by
  refine ⟨⟨h.1.1, h.1.2.2, h.1.2.1⟩, ?_⟩
  show rotAbout a.center (PyFloat.neg a.angle) a.p2 = a.p1
  rw [real_neg]
  exact rotAbout_neg _ _ _ _ (by rw [neg_neg]; exact h.2)

/-- **C192**, a line and the arc after it: if a fillet fits, it is returned: it starts on the line, ends on the arc, has the radius asked for and goes round its centre from one to the
other by at most half a turn. -/
theorem C192_line_arc_fits {eps r : ℝ} (heps : 0 < eps) (hr : eps ≤ r) (v u : P ℝ) (hu : UnitVec u) (L : ℝ) (hL : eps ≤ L) (a : Arc ℝ) (hR : 0 < a.radius)
    (ha : a.Sweeps) (hopen : eps ^ 2 ≤ sqDist a.p2 (along v u (-L))) {s θ : ℝ} (hf : LineArcFit eps r v u L a s θ) :
    ∃ f, createFilletArc eps (.line (lineTo v u L)) (.arc a) r = .ok (some f) ∧ f.p1 = along v u (-s) ∧ f.p2 = arcPt a θ ∧
      f.center = beside v u (-s) (r * turnSide u (passDir a a.p1)) ∧ f.radius = r ∧ f.Sweeps ∧ |f.angle| ≤ Real.pi := by
  obtain ⟨h1, h2⟩ := lineArcParts_fit heps hr v u hu L hL a hR ha hf
  have d1 : sqDist (along v u (-s)) (beside v u (-s) (r * turnSide u (passDir a a.p1))) = r ^ 2 := by
    have : along v u (-s) = beside v u (-s) 0 := by apply P.ext_real <;> simp [along, beside]
    rw [this, sqDist_beside v u hu]
    rcases turnSide_sq u (passDir a a.p1) with g | g <;> rw [g] <;> ring
  obtain ⟨g1, g2, g3⟩ := threePoint_sweeps heps hr d1 h2 hf.apart'
  refine ⟨_, ?_, rfl, rfl, rfl, g2, g1, g3⟩
  simp only [createFilletArc]
  rw [filletLineArc_parts, if_neg, h1]
  · rfl
  · rw [far_iff heps]; exact not_lt.2 hopen

/-- The turn of the fillet: the end on the arc is ahead of its centre. -/
theorem fit_turn {eps r : ℝ} (heps : 0 < eps) (hr : eps ≤ r) (v u : P ℝ) (hu : UnitVec u) (L : ℝ) (a : Arc ℝ) (hR : 0 < a.radius) {s θ : ℝ} (hf : LineArcFit eps r v u L a s θ)
    (hstrict : -s ≠ dotOf u ⟨a.center.x - v.x, a.center.y - v.y⟩) (c : P ℝ) (hc : c = beside v u (-s) (r * turnSide u (passDir a a.p1))) :
    0 < dotOf u ⟨(arcPt a θ).x - c.x, (arcPt a θ).y - c.y⟩ ∧
    ∃ k, 0 < k ∧ turnSide u (passDir a a.p1) * -((arcPt a θ).y - c.y) = k * (passDir a (arcPt a θ)).x ∧ turnSide u (passDir a a.p1) * ((arcPt a θ).x - c.x) = k * (passDir a (arcPt a θ)).y := by
  obtain ⟨-, -, hH, htch, hnear, -, -⟩ := hf
  have hσ2 := turnSide_sq u (passDir a a.p1)
  obtain ⟨hx, hy⟩ := htch c hc
  set σ := turnSide u (passDir a a.p1) with hσ
  set H := reach a r σ with hHd
  set q := arcPt a θ with hq
  have hr0 : 0 < r := by linarith
  have hm : H / a.radius * a.radius = H := by field_simp
  -- coordinates of the centre of the fillet along the line
  have hdot : dotOf u ⟨c.x - a.center.x, c.y - a.center.y⟩ = -s - dotOf u ⟨a.center.x - v.x, a.center.y - v.y⟩ := by
    have := (cross_beside v u hu (-s) (r * σ)).2
    rw [← hc] at this
    unfold dotOf at *
    simp only at *
    linear_combination this
  have hcd : dotOf u ⟨c.x - a.center.x, c.y - a.center.y⟩ = H / a.radius * dotOf u ⟨q.x - a.center.x, q.y - a.center.y⟩ := by
    unfold dotOf; simp only; rw [hx, hy]; ring
  have hmp : 0 < H / a.radius := by positivity
  have hsense : (if a.angle < 0 then (-1 : ℝ) else 1) = 1 ∨ (if a.angle < 0 then (-1 : ℝ) else 1) = -1 := by split <;> simp
  have hpass : passDir a q = ⟨(if a.angle < 0 then (-1 : ℝ) else 1) * -(q.y - a.center.y), (if a.angle < 0 then (-1 : ℝ) else 1) * (q.x - a.center.x)⟩ := by
    unfold passDir; split <;> simp
  rw [hpass]
  have ex : q.x - c.x = (1 - H / a.radius) * (q.x - a.center.x) := by linear_combination -hx
  have ey : q.y - c.y = (1 - H / a.radius) * (q.y - a.center.y) := by linear_combination -hy
  have hdq : dotOf u ⟨q.x - c.x, q.y - c.y⟩ = (1 - H / a.radius) * dotOf u ⟨q.x - a.center.x, q.y - a.center.y⟩ := by
    unfold dotOf; simp only; rw [ex, ey]; ring
  rw [hdq, ex, ey]
  have hreach : (σ = (if a.angle < 0 then -1 else 1) ∧ H = a.radius - r) ∨ (σ ≠ (if a.angle < 0 then -1 else 1) ∧ H = a.radius + r) := by
    rw [hHd]; unfold reach
    generalize (if a.angle < 0 then (-1 : ℝ) else 1) = z
    by_cases g : σ = z <;> simp [g]
  generalize hz : (if a.angle < 0 then (-1 : ℝ) else 1) = z at *
  have hs' : -s - dotOf u ⟨a.center.x - v.x, a.center.y - v.y⟩ ≠ 0 := sub_ne_zero.2 hstrict
  rw [← hdot, hcd] at hs'
  rw [hcd] at hdot
  set e := dotOf u ⟨q.x - a.center.x, q.y - a.center.y⟩ with he
  rcases hreach with ⟨g1, g2⟩ | ⟨g1, g2⟩
  · rw [if_pos g1] at hnear
    have hone : 1 - H / a.radius = r / a.radius := by rw [g2]; field_simp; ring
    have hpos : 0 < e := by
      have h1 : 0 ≤ H / a.radius * e := by rw [hdot]; linarith
      have h2 : 0 < H / a.radius * e := lt_of_le_of_ne h1 hs'.symm
      exact (mul_pos_iff_of_pos_left hmp).1 h2
    rw [hone]
    refine ⟨by positivity, r / a.radius, by positivity, ?_, ?_⟩ <;> rw [g1] <;> ring
  · rw [if_neg g1] at hnear
    have hone : 1 - H / a.radius = -(r / a.radius) := by rw [g2]; field_simp; ring
    have hneg : e < 0 := by
      have h1 : H / a.radius * e ≤ 0 := by rw [hdot]; linarith
      have h2 : H / a.radius * e < 0 := lt_of_le_of_ne h1 hs'
      by_contra hcon
      push Not at hcon
      nlinarith [mul_nonneg hmp.le hcon]
    have hσz : σ = -z := by
      rcases hσ2 with k1 | k1 <;> rcases hsense with k2 | k2 <;> rw [k1, k2] at g1 ⊢ <;> first | exact absurd rfl g1 | norm_num
    rw [hone]
    refine ⟨?_, r / a.radius, by positivity, ?_, ?_⟩
    · have : 0 < r / a.radius := by positivity
      nlinarith
    · rw [hσz]; ring
    · rw [hσz]; ring

/-- The sign of the angle of an arc through two points. -/
theorem threePoint_sign {eps : ℝ} {p q c : P ℝ} (hpq : eps ^ 2 ≤ sqDist p q) :
    (0 < (p.x - c.x) * (q.y - c.y) - (q.x - c.x) * (p.y - c.y) → 0 < (Arc.fromTwoPointsAndCenter eps p q c).angle) ∧
    ((p.x - c.x) * (q.y - c.y) - (q.x - c.x) * (p.y - c.y) < 0 → (Arc.fromTwoPointsAndCenter eps p q c).angle < 0) := by
  have e : (Arc.fromTwoPointsAndCenter eps p q c).angle = Complex.arg ⟨(p.x - c.x) * (q.x - c.x) + (p.y - c.y) * (q.y - c.y), (p.x - c.x) * (q.y - c.y) - (q.x - c.x) * (p.y - c.y)⟩ := by
    simp only [Arc.fromTwoPointsAndCenter, Bool.false_eq_true, if_false]
    rw [angle2_real eps _ _ _ hpq, real_atan2]
  rw [e]
  constructor
  · intro h
    have h1 := Complex.arg_nonneg_iff.2 (show (0 : ℝ) ≤ (⟨(p.x - c.x) * (q.x - c.x) + (p.y - c.y) * (q.y - c.y), (p.x - c.x) * (q.y - c.y) - (q.x - c.x) * (p.y - c.y)⟩ : ℂ).im from h.le)
    refine lt_of_le_of_ne h1 fun h2 => ?_
    have := (Complex.arg_eq_zero_iff.1 h2.symm).2
    simp only at this
    linarith
  · intro h
    exact Complex.arg_neg_iff.2 h

/-- **C192**, smoothness, a line and the arc after it: the fillet starts in the direction of the line and ends in the direction of the arc where it meets it. (The centre of the fillet is
taken not to be exactly beside that of the arc, where it would turn by exactly half a turn.) -/
theorem C192_line_arc_smooth {eps r : ℝ} (heps : 0 < eps) (hr : eps ≤ r) (v u : P ℝ) (hu : UnitVec u) (L : ℝ) (hL : eps ≤ L) (a : Arc ℝ) (hR : 0 < a.radius)
    (ha : a.Sweeps) (hopen : eps ^ 2 ≤ sqDist a.p2 (along v u (-L))) {s θ : ℝ} (hf : LineArcFit eps r v u L a s θ)
    (hstrict : -s ≠ dotOf u ⟨a.center.x - v.x, a.center.y - v.y⟩) :
    ∃ f, createFilletArc eps (.line (lineTo v u L)) (.arc a) r = .ok (some f) ∧ f.GoesAt f.p1 u ∧ f.GoesAt f.p2 (passDir a f.p2) := by
  obtain ⟨h1, h2⟩ := lineArcParts_fit heps hr v u hu L hL a hR ha hf
  obtain ⟨t1, k, k0, k1, k2⟩ := fit_turn heps hr v u hu L a hR hf hstrict _ rfl
  have hσ2 := turnSide_sq u (passDir a a.p1)
  set σ := turnSide u (passDir a a.p1) with hσ
  set c := beside v u (-s) (r * σ) with hc
  set q := arcPt a θ with hq
  have hr0 : 0 < r := by linarith
  refine ⟨Arc.fromTwoPointsAndCenter eps (along v u (-s)) q c, ?_, ?_, ?_⟩
  · simp only [createFilletArc]
    rw [filletLineArc_parts, if_neg, h1]
    · rfl
    · rw [far_iff heps]; exact not_lt.2 hopen
  all_goals
    have px : (along v u (-s)).x - c.x = r * σ * u.y := by rw [hc]; simp only [along, beside]; ring
    have py : (along v u (-s)).y - c.y = -(r * σ * u.x) := by rw [hc]; simp only [along, beside]; ring
    have hcr : ((along v u (-s)).x - c.x) * (q.y - c.y) - (q.x - c.x) * ((along v u (-s)).y - c.y) = r * σ * dotOf u ⟨q.x - c.x, q.y - c.y⟩ := by
      rw [px, py]; unfold dotOf; ring
    have hsgn := threePoint_sign (c := c) hf.apart'
    rw [hcr] at hsgn
    have hif : (if 0 < (Arc.fromTwoPointsAndCenter eps (along v u (-s)) q c).angle then (1 : ℝ) else -1) = σ := by
      rcases hσ2 with g | g
      · rw [if_pos (hsgn.1 (by rw [g]; nlinarith)), g]
      · rw [if_neg (not_lt.2 (hsgn.2 (by rw [g]; nlinarith)).le), g]
    have hss : σ * σ = 1 := by rcases hσ2 with g | g <;> rw [g] <;> norm_num
    unfold Arc.GoesAt
    rw [hif]
  · refine ⟨r, hr0, ?_, ?_⟩
    · show σ * -((along v u (-s)).y - c.y) = _
      rw [py]; linear_combination r * u.x * hss
    · show σ * ((along v u (-s)).x - c.x) = _
      rw [px]; linear_combination r * u.y * hss
  · exact ⟨k, k0, k1, k2⟩

/-- The reversed corner, for `C192_arc_line_fits` and `C192_refuted_closed`. -/
theorem reversed_corner {eps r : ℝ} (heps : 0 < eps) (hr : eps ≤ r) (v u : P ℝ) (hu : UnitVec u) (L : ℝ) (hL : eps ≤ L) (a : Arc ℝ) (hR : 0 < a.radius)
    (ha : a.Sweeps) (hjoin : sqDist a.p2 v < eps ^ 2) {s θ : ℝ} (hf : LineArcFit eps r v ⟨-u.x, -u.y⟩ L a.reversed s θ) :
    ∃ f, filletLineArc eps ⟨v, along v u L⟩ a r = some f ∧ f.p1 = arcPt a.reversed θ ∧ f.p2 = along v u s ∧
      f.center = beside v ⟨-u.x, -u.y⟩ (-s) (r * turnSide ⟨-u.x, -u.y⟩ (passDir a.reversed a.p2)) ∧ f.radius = r ∧ f.Sweeps ∧ |f.angle| ≤ Real.pi := by
  have hu' : UnitVec ⟨-u.x, -u.y⟩ := by unfold UnitVec at *; simpa using hu
  obtain ⟨h1, h2⟩ := lineArcParts_fit heps hr v _ hu' L hL a.reversed hR (reversed_sweeps a ha) hf
  have d1 : sqDist (along v ⟨-u.x, -u.y⟩ (-s)) (beside v ⟨-u.x, -u.y⟩ (-s) (r * turnSide ⟨-u.x, -u.y⟩ (passDir a.reversed a.reversed.p1))) = r ^ 2 := by
    have : along v ⟨-u.x, -u.y⟩ (-s) = beside v ⟨-u.x, -u.y⟩ (-s) 0 := by apply P.ext_real <;> simp [along, beside]
    rw [this, sqDist_beside v _ hu']
    rcases turnSide_sq ⟨-u.x, -u.y⟩ (passDir a.reversed a.reversed.p1) with g | g <;> rw [g] <;> ring
  have hal : ∀ m : ℝ, along v ⟨-u.x, -u.y⟩ (-m) = along v u m := by
    intro m; apply P.ext_real <;> simp [along]
  obtain ⟨g1, g2, g3⟩ := threePoint_sweeps heps hr h2 d1 (by rw [sqDist_comm]; exact hf.apart')
  refine ⟨_, ?_, rfl, hal s, rfl, g2, g1, g3⟩
  have hl : (⟨v, along v u L⟩ : Line ℝ).reversed = lineTo v ⟨-u.x, -u.y⟩ L := by
    unfold lineTo; rw [hal]; rfl
  rw [filletLineArc_parts, if_pos ((far_iff heps _ _).2 hjoin), hl, h1]
  rfl

/-- **C192**, an arc and the line after it: if a fillet fits (the corner seen backwards is a line and an arc), it is returned, from the arc to the line. -/
theorem C192_arc_line_fits {eps r : ℝ} (heps : 0 < eps) (hr : eps ≤ r) (v u : P ℝ) (hu : UnitVec u) (L : ℝ) (hL : eps ≤ L) (a : Arc ℝ) (hR : 0 < a.radius)
    (ha : a.Sweeps) (hjoin : sqDist a.p2 v < eps ^ 2) {s θ : ℝ} (hf : LineArcFit eps r v ⟨-u.x, -u.y⟩ L a.reversed s θ) :
    ∃ f, createFilletArc eps (.arc a) (.line ⟨v, along v u L⟩) r = .ok (some f) ∧ f.p1 = arcPt a.reversed θ ∧ f.p2 = along v u s ∧
      f.center = beside v ⟨-u.x, -u.y⟩ (-s) (r * turnSide ⟨-u.x, -u.y⟩ (passDir a.reversed a.p2)) ∧ f.radius = r ∧ f.Sweeps ∧ |f.angle| ≤ Real.pi := by
  obtain ⟨f, h, g⟩ := reversed_corner heps hr v u hu L hL a hR ha hjoin hf
  exact ⟨f, by simp only [createFilletArc, h], g⟩

/-- **C192**, smoothness, an arc and the line after it. -/
theorem C192_arc_line_smooth {eps r : ℝ} (heps : 0 < eps) (hr : eps ≤ r) (v u : P ℝ) (hu : UnitVec u) (L : ℝ) (hL : eps ≤ L) (a : Arc ℝ) (hR : 0 < a.radius) (hang : a.angle ≠ 0)
    (ha : a.Sweeps) (hjoin : sqDist a.p2 v < eps ^ 2) {s θ : ℝ} (hf : LineArcFit eps r v ⟨-u.x, -u.y⟩ L a.reversed s θ)
    (hstrict : s ≠ dotOf u ⟨a.center.x - v.x, a.center.y - v.y⟩) :
    ∃ f, createFilletArc eps (.arc a) (.line ⟨v, along v u L⟩) r = .ok (some f) ∧ f.GoesAt f.p1 (passDir a f.p1) ∧ f.GoesAt f.p2 u := by
  have hu' : UnitVec ⟨-u.x, -u.y⟩ := by unfold UnitVec at *; simpa using hu
  obtain ⟨h1, h2⟩ := lineArcParts_fit heps hr v _ hu' L hL a.reversed hR (reversed_sweeps a ha) hf
  have hstrict' : -s ≠ dotOf ⟨-u.x, -u.y⟩ ⟨a.reversed.center.x - v.x, a.reversed.center.y - v.y⟩ := by
    intro h
    apply hstrict
    have : dotOf ⟨-u.x, -u.y⟩ ⟨a.reversed.center.x - v.x, a.reversed.center.y - v.y⟩ = -dotOf u ⟨a.center.x - v.x, a.center.y - v.y⟩ := by
      unfold dotOf Arc.reversed; ring
    rw [this] at h; linarith
  obtain ⟨t1, k, k0, k1, k2⟩ := fit_turn heps hr v _ hu' L a.reversed hR hf hstrict' _ rfl
  have hσ2 := turnSide_sq ⟨-u.x, -u.y⟩ (passDir a.reversed a.reversed.p1)
  set σ := turnSide ⟨-u.x, -u.y⟩ (passDir a.reversed a.reversed.p1) with hσ
  set c := beside v ⟨-u.x, -u.y⟩ (-s) (r * σ) with hc
  set q := arcPt a.reversed θ with hq
  have hr0 : 0 < r := by linarith
  have hal : ∀ m : ℝ, along v ⟨-u.x, -u.y⟩ (-m) = along v u m := by
    intro m; apply P.ext_real <;> simp [along]
  have hap := hf.apart'
  rw [hal, ← hq] at hap
  rw [hal] at h1
  have hpass : passDir a.reversed q = ⟨-(passDir a q).x, -(passDir a q).y⟩ := by
    unfold passDir Arc.reversed
    simp only [real_neg]
    rcases lt_or_gt_of_ne hang with g | g
    · rw [if_neg (by linarith), if_pos g]; apply P.ext_real <;> simp
    · rw [if_pos (by linarith), if_neg (by linarith)]; apply P.ext_real <;> simp
  rw [hpass] at k1 k2
  refine ⟨Arc.fromTwoPointsAndCenter eps q (along v u s) c, ?_, ?_, ?_⟩
  · simp only [createFilletArc]
    have hl : (⟨v, along v u L⟩ : Line ℝ).reversed = lineTo v ⟨-u.x, -u.y⟩ L := by
      unfold lineTo; rw [hal]; rfl
    rw [filletLineArc_parts, if_pos ((far_iff heps _ _).2 hjoin), hl, h1]
    rfl
  all_goals
    have px : (along v u s).x - c.x = -(r * σ * u.y) := by rw [hc]; simp only [along, beside]; ring
    have py : (along v u s).y - c.y = r * σ * u.x := by rw [hc]; simp only [along, beside]; ring
    have hcr : (q.x - c.x) * ((along v u s).y - c.y) - ((along v u s).x - c.x) * (q.y - c.y) = -(r * σ * dotOf ⟨-u.x, -u.y⟩ ⟨q.x - c.x, q.y - c.y⟩) := by
      rw [px, py]; unfold dotOf; ring
    have hsgn := threePoint_sign (eps := eps) (p := q) (q := along v u s) (c := c) (by rw [sqDist_comm]; exact hap)
    rw [hcr] at hsgn
    have hif : (if 0 < (Arc.fromTwoPointsAndCenter eps q (along v u s) c).angle then (1 : ℝ) else -1) = -σ := by
      rcases hσ2 with g | g
      · rw [if_neg (not_lt.2 (hsgn.2 (by rw [g]; nlinarith)).le), g]
      · rw [if_pos (hsgn.1 (by rw [g]; nlinarith)), g]; norm_num
    have hss : σ * σ = 1 := by rcases hσ2 with g | g <;> rw [g] <;> norm_num
    unfold Arc.GoesAt
    rw [hif]
  · refine ⟨k, k0, ?_, ?_⟩
    · show -σ * -(q.y - c.y) = k * (passDir a q).x
      linear_combination -k1
    · show -σ * (q.x - c.x) = k * (passDir a q).y
      linear_combination -k2
  · refine ⟨r, hr0, ?_, ?_⟩
    · show -σ * -((along v u s).y - c.y) = _
      rw [py]; linear_combination r * u.x * hss
    · show -σ * ((along v u s).x - c.x) = _
      rw [px]; linear_combination r * u.y * hss

/-- **C192** is false of the code for a line and an arc that ends where the line starts (the outline of a segment of a disc): for the corner between the end of the line and the start
of the arc the fillet of the other corner is returned, from the arc to the line: it starts on the arc, ends on the line near its start. -/
theorem C192_refuted_closed {eps r : ℝ} (heps : 0 < eps) (hr : eps ≤ r) (v u : P ℝ) (hu : UnitVec u) (L : ℝ) (hL : eps ≤ L) (a : Arc ℝ) (hR : 0 < a.radius)
    (ha : a.Sweeps) (hjoin : sqDist a.p2 v < eps ^ 2) {s θ : ℝ} (hf : LineArcFit eps r v ⟨-u.x, -u.y⟩ L a.reversed s θ) :
    ∃ f, createFilletArc eps (.line ⟨v, along v u L⟩) (.arc a) r = .ok (some f) ∧ f.p1 = arcPt a.reversed θ ∧ f.p2 = along v u s := by
  obtain ⟨f, h, g1, g2, -⟩ := reversed_corner heps hr v u hu L hL a hR ha hjoin hf
  exact ⟨f, by simp only [createFilletArc, h], g1, g2⟩

/-! ### A half disc -/

/-- The outline of a half disc: the diameter, then the half circle back. -/
noncomputable def halfDisc : Path ℝ := [⟨.line ⟨⟨-8, 0⟩, ⟨8, 0⟩⟩, {}⟩, ⟨.arc ⟨⟨8, 0⟩, ⟨-8, 0⟩, 8, Real.pi, ⟨0, 0⟩⟩, {}⟩]

noncomputable def halfCircle : Arc ℝ := ⟨⟨8, 0⟩, ⟨-8, 0⟩, 8, Real.pi, ⟨0, 0⟩⟩

theorem sin_arccos_45 : Real.sin (Real.arccos (4/5)) = 3/5 := by
  rw [Real.sin_arccos, show (1 : ℝ) - (4/5) ^ 2 = (3/5) ^ 2 by norm_num, Real.sqrt_sq (by norm_num)]

theorem cos_arccos_45 : Real.cos (Real.arccos (4/5)) = 4/5 := Real.cos_arccos (by norm_num) (by norm_num)

theorem arccos_45 : 0 < Real.arccos (4/5) ∧ Real.arccos (4/5) < Real.pi :=
  ⟨Real.arccos_pos.2 (by norm_num), lt_of_le_of_lt (Real.arccos_le_pi_div_two.2 (by norm_num)) (by linarith [Real.pi_pos])⟩

theorem halfCircle_sweeps : halfCircle.Sweeps := by
  refine ⟨⟨by norm_num [halfCircle], by norm_num [halfCircle, sqDist], by norm_num [halfCircle, sqDist]⟩, ?_⟩
  apply P.ext_real <;> simp [halfCircle, rotAbout]

theorem neg_halfCircle : halfCircle.reversed = ⟨⟨-8, 0⟩, ⟨8, 0⟩, 8, -Real.pi, ⟨0, 0⟩⟩ := rfl

theorem halfCircle_pt : arcPt halfCircle.reversed (Real.arccos (4/5)) = ⟨-32/5, 24/5⟩ := by
  rw [neg_halfCircle]
  unfold arcPt
  apply P.ext_real <;> simp only [rotAbout, Left.neg_neg_iff, Real.pi_pos, if_true, Real.cos_neg, Real.sin_neg, sin_arccos_45, cos_arccos_45] <;> norm_num

theorem halfDisc_side : turnSide ⟨-1, -0⟩ (passDir halfCircle.reversed halfCircle.reversed.p1) = -1 ∧ (passDir halfCircle.reversed halfCircle.reversed.p1) = ⟨0, 8⟩ := by
  have : passDir halfCircle.reversed halfCircle.reversed.p1 = ⟨0, 8⟩ := by
    rw [neg_halfCircle]
    unfold passDir
    simp [Real.pi_pos]
  rw [this]
  refine ⟨?_, rfl⟩
  unfold turnSide crossOf
  norm_num

theorem halfDisc_fit {eps : ℝ} (heps : 0 < eps) (h1 : eps ≤ 1) : LineArcFit eps 3 ⟨-8, 0⟩ ⟨-1, -0⟩ 16 halfCircle.reversed 4 (Real.arccos (4/5)) := by
  have hs := halfDisc_side.1
  have hreach : reach halfCircle.reversed 3 (-1) = 5 := by
    rw [neg_halfCircle]; unfold reach
    simp [Real.pi_pos]; norm_num
  have hb : beside ⟨-8, 0⟩ ⟨-1, -0⟩ (-4) (3 * -1) = ⟨-4, 3⟩ := by apply P.ext_real <;> norm_num [beside]
  have he : eps ^ 2 ≤ 1 := by nlinarith
  constructor
  · norm_num
  · refine ⟨arccos_45.1, ?_, arccos_45.2⟩
    rw [neg_halfCircle]
    simp only [abs_neg, abs_of_pos Real.pi_pos]
    exact arccos_45.2.le
  · rw [hs, hreach]; norm_num
  · rw [hs, hreach, hb]
    rintro c rfl
    rw [halfCircle_pt, neg_halfCircle]
    norm_num
  · rw [hs, neg_halfCircle]
    simp [Real.pi_pos, dotOf]
    norm_num
  · rw [hs, hb, neg_halfCircle]
    refine le_trans he ?_
    norm_num [sqDist]
  · rw [halfCircle_pt]
    refine le_trans he ?_
    norm_num [sqDist, along]

/-- Non-vacuity: the fillet between a half circle and the diameter after it. -/
example : ∃ f, createFilletArc (1/1000000) (.arc halfCircle) (.line ⟨⟨-8, 0⟩, along ⟨-8, 0⟩ ⟨1, 0⟩ 16⟩) 3 = .ok (some f) ∧ f.p1 = ⟨-32/5, 24/5⟩ ∧ f.p2 = ⟨-4, 0⟩ ∧ f.radius = 3 := by
  obtain ⟨f, h, g1, g2, -, g3, -⟩ := C192_arc_line_fits (eps := 1/1000000) (r := 3) (by norm_num) (by norm_num) ⟨-8, 0⟩ ⟨1, 0⟩ (by norm_num [UnitVec]) 16 (by norm_num) halfCircle
    (by norm_num [halfCircle]) halfCircle_sweeps (by norm_num [halfCircle, sqDist]) (halfDisc_fit (by norm_num) (by norm_num))
  refine ⟨f, h, by rw [g1, halfCircle_pt], by rw [g2]; apply P.ext_real <;> norm_num [along], g3⟩

/-- Non-vacuity: the same corner the other way round, for a line of length 10. -/
example : ∃ f, createFilletArc (1/1000000) (.line (lineTo ⟨-8, 0⟩ ⟨-1, -0⟩ 10)) (.arc halfCircle.reversed) 3 = .ok (some f) ∧ f.p1 = ⟨-4, 0⟩ ∧ f.p2 = ⟨-32/5, 24/5⟩ ∧ f.radius = 3 := by
  have hf := halfDisc_fit (eps := 1/1000000) (by norm_num) (by norm_num)
  have hf' : LineArcFit (1/1000000) 3 ⟨-8, 0⟩ ⟨-1, -0⟩ 10 halfCircle.reversed 4 (Real.arccos (4/5)) := { hf with onLine := by norm_num }
  obtain ⟨f, h, g1, g2, -, g3, -⟩ := C192_line_arc_fits (eps := 1/1000000) (r := 3) (by norm_num) (by norm_num) ⟨-8, 0⟩ ⟨-1, -0⟩ (by norm_num [UnitVec]) 10 (by norm_num) halfCircle.reversed
    (by norm_num [halfCircle, Arc.reversed]) (reversed_sweeps _ halfCircle_sweeps) (by norm_num [halfCircle, Arc.reversed, sqDist, along]) hf'
  refine ⟨f, h, by rw [g1]; apply P.ext_real <;> norm_num [along], by rw [g2, halfCircle_pt], g3⟩

/-- **C192** is false of the code (`fillet_path`): the rounded outline of a half disc of radius 8 (fillets of radius 3) goes from the start of the diameter straight to a point of the half
circle next to it, and then back along the fillet of that corner to the diameter; the half circle is taken from there, from a point that is not on it. The corner at (8, 0) is gone. -/
theorem C192_refuted_path {eps : ℝ} (heps : 0 < eps) (h1 : eps ≤ 1) (close mark : Bool) :
    ∃ s1 f s2 g, filletPath eps halfDisc 3 close false mark = .ok [s1, f, s2] ∧ s1.shape = .line ⟨⟨-8, 0⟩, ⟨-32/5, 24/5⟩⟩ ∧ f.shape.p1 = ⟨-32/5, 24/5⟩ ∧ f.shape.p2 = ⟨-4, 0⟩ ∧
      s2.shape = .arc g ∧ g.p1 = ⟨-4, 0⟩ ∧ g.center = ⟨0, 0⟩ ∧ g.radius = 8 := by
  have hal : along ⟨-8, 0⟩ ⟨1, 0⟩ 16 = (⟨8, 0⟩ : P ℝ) := by apply P.ext_real <;> norm_num [along]
  have hal' : along ⟨-8, 0⟩ ⟨1, 0⟩ 4 = (⟨-4, 0⟩ : P ℝ) := by apply P.ext_real <;> norm_num [along]
  obtain ⟨f, hf, g1, g2⟩ := C192_refuted_closed (eps := eps) (r := 3) heps (by linarith) ⟨-8, 0⟩ ⟨1, 0⟩ (by norm_num [UnitVec]) 16 (by linarith) halfCircle
    (by norm_num [halfCircle]) halfCircle_sweeps (by simp [halfCircle, sqDist]; positivity) (halfDisc_fit heps h1)
  rw [hal] at hf
  rw [halfCircle_pt] at g1
  rw [hal'] at g2
  have hG : segmentsAreG1 eps eps (.line ⟨⟨-8, 0⟩, ⟨8, 0⟩⟩) (.arc halfCircle) = false := by
    unfold segmentsAreG1
    rw [Bool.and_eq_false_iff]
    refine .inr ?_
    have hd := passDir_unit halfCircle halfCircle.p1 8 (by norm_num) (by norm_num [halfCircle, sqDist])
    have hpd : passDir halfCircle halfCircle.p1 = ⟨0, 8⟩ := by
      unfold passDir halfCircle
      simp [Real.pi_pos.le]
    rw [hpd] at hd
    have hc : Real.cos halfCircle.startTangent = 0 := by
      have := congrArg P.x hd
      simp only [P.fromPolar, real_mul, real_one, one_mul, zero_div] at this
      exact this
    have hl : (Shape.line ⟨⟨-8, 0⟩, ⟨8, 0⟩⟩ : Shape ℝ).endTangent eps = 0 := by
      show PyTrig.atan2 ((0 : ℝ) - 0) (8 - -8) = 0
      rw [real_atan2]
      have : (⟨8 - -8, 0 - 0⟩ : ℂ) = ((16 : ℝ) : ℂ) := by apply Complex.ext <;> norm_num
      rw [this, Complex.arg_ofReal_of_nonneg (by norm_num)]
    rw [hl]
    show decide (|0 - halfCircle.startTangent| < eps) = false
    rw [decide_eq_false_iff_not]
    intro h
    rw [zero_sub, abs_neg, abs_lt] at h
    have := Real.cos_pos_of_mem_Ioo (x := halfCircle.startTangent) ⟨by linarith [h.1, Real.two_le_pi], by linarith [h.2, Real.two_le_pi]⟩
    linarith
  have hhalf : halfDisc = [⟨.line ⟨⟨-8, 0⟩, ⟨8, 0⟩⟩, {}⟩, ⟨.arc halfCircle, {}⟩] := rfl
  have hr : ((3 : ℝ) <. eps) = false := by simp; linarith
  have hrun : filletPath eps halfDisc 3 close false mark = .ok [Seg.copyAttrs ⟨.line ⟨⟨-8, 0⟩, ⟨8, 0⟩⟩, {}⟩ ⟨connectFirst eps (.line ⟨⟨-8, 0⟩, ⟨8, 0⟩⟩) f, {}⟩,
      ⟨.arc f, { ignoreG1 := mark }⟩, Seg.copyAttrs ⟨.arc halfCircle, {}⟩ ⟨connectSecond eps f (.arc halfCircle), {}⟩] := by
    unfold filletPath
    rw [hhalf, hr]
    simp [filletLoop, createAdjustedFillet, hG, hf, bind, Except.bind, pure, Except.pure]
  refine ⟨_, _, _, _, hrun, ?_, g1, g2, rfl, g2, rfl, rfl⟩
  simp [Seg.copyAttrs, connectFirst, g1]

/-! ## Two arcs -/

theorem arcSide (eps : ℝ) (a b : Arc ℝ) (ha : 0 < a.radius) (hb : 0 < b.radius) (h1 : sqDist a.p2 a.center = a.radius ^ 2) (h2 : sqDist b.p1 b.center = b.radius ^ 2) :
    (ofInt (a.whichSideAngle eps b.startTangent) : ℝ) = turnSide (passDir a a.p2) (passDir b b.p1) := by
  have e1 := passDir_unit a a.p2 a.radius ha h1
  have e2 := passDir_unit b b.p1 b.radius hb h2
  unfold Arc.whichSideAngle Arc.endTangent Arc.startTangent Line.whichSide
  dsimp only
  rw [e1, e2]
  set u := passDir a a.p2
  set w := passDir b b.p1
  have e : (((⟨u.x / a.radius, u.y / a.radius⟩ : P ℝ).add a.p2).sub a.p2).cross (((⟨w.x / b.radius, w.y / b.radius⟩ : P ℝ).add a.p2).sub a.p2) = crossOf u w / (a.radius * b.radius) := by
    simp [P.sub, P.add, P.cross, crossOf]; field_simp
  simp only [Bool.false_and, Bool.false_eq_true, if_false, e, real_le, real_zero, decide_eq_true_eq]
  unfold turnSide
  have hp : 0 < a.radius * b.radius := mul_pos ha hb
  by_cases hc : 0 ≤ crossOf u w
  · rw [if_pos hc, if_pos (div_nonneg hc hp.le)]; simp
  · rw [if_neg hc, if_neg (by push Not at hc ⊢; exact div_neg_of_neg_of_pos hc hp)]; simp

/-- The radius of the offset arc is the distance `reach`. -/
theorem offset_reach {a o : Arc ℝ} {r σ : ℝ} (hσ : σ = 1 ∨ σ = -1) (h : a.offset (r * σ * ofInt (if a.isClockwise then 1 else -1)) = .ok o) :
    o.radius = reach a r σ ∧ o.center = a.center := by
  unfold Arc.offset at h
  obtain ⟨l1, h1, h⟩ := bind_ok h
  obtain ⟨l2, h2, h⟩ := bind_ok h
  cases h
  refine ⟨?_, rfl⟩
  unfold Arc.isClockwise reach
  simp only [real_lt, real_zero, real_add, decide_eq_true_eq]
  by_cases hn : a.angle < 0 <;> rcases hσ with g | g <;> simp [hn, g] <;> norm_num <;> ring

theorem intersectArc_good {eps : ℝ} {a b : Arc ℝ} {l : List (P ℝ)} (h : a.intersectArc eps b true = .ok l) : ∀ c ∈ l.head?, a.pointOnArc eps c = true ∧ b.pointOnArc eps c = true := by
  unfold Arc.intersectArc at h
  obtain ⟨l0, h0, h⟩ := bind_ok h
  have hlen : l0.length ≤ 2 := by
    unfold intersectCircle at h0
    dsimp only at h0
    repeat' split at h0
    all_goals first
      | (cases h0; simp)
      | (obtain ⟨x, -, h0⟩ := bind_ok h0
         split at h0 <;> (cases h0; simp))
  simp only [if_true, pure, Except.pure, Except.ok.injEq] at h
  subst h
  intro c hc
  match l0, hlen with
  | [], _ => simp at hc
  | [p], _ =>
    by_cases hp : (a.pointOnArc eps p && b.pointOnArc eps p) = true
    · simp [hp] at hc; subst hc; simpa using hp
    · simp [hp] at hc
  | [p, q], _ =>
    by_cases hp : (a.pointOnArc eps p && b.pointOnArc eps p) = true
    · simp only [hp, if_true, List.getLast?_cons_cons, List.getLast?_singleton] at hc
      by_cases hq : (a.pointOnArc eps q && b.pointOnArc eps q) = true
      · simp [hq] at hc; subst hc; simpa using hp
      · simp [hq] at hc; subst hc; simpa using hp
    · simp only [hp, Bool.false_eq_true, if_false, List.getLast?_singleton] at hc
      by_cases hq : (a.pointOnArc eps q && b.pointOnArc eps q) = true
      · simp [hq] at hc; subst hc; simpa using hq
      · simp [hq] at hc

theorem onArc_distance {eps : ℝ} {a : Arc ℝ} {p : P ℝ} (h : a.pointOnArc eps p = true) : |a.radius - Real.sqrt (sqDist a.center p)| < eps := by
  unfold Arc.pointOnArc at h
  split at h
  · rename_i hf
    rw [floatEq_iff, distance_real] at hf
    exact hf
  · cases h

/-- Specification: the point is on the line through the centre of the arc and `c`, at the radius of the arc from the centre, on the side of `c` or on the other side. -/
def OnDiameter (a : Arc ℝ) (c q : P ℝ) : Prop :=
  sqDist q a.center = a.radius ^ 2 ∧ crossOf ⟨c.x - a.center.x, c.y - a.center.y⟩ ⟨q.x - a.center.x, q.y - a.center.y⟩ = 0

theorem intersectLine_center {eps : ℝ} {a : Arc ℝ} {c : P ℝ} {l : List (P ℝ)} (h : a.intersectLine eps ⟨c, a.center⟩ true = .ok l)
    (hfar : eps ≤ a.radius ^ 2 * sqDist c a.center) (heps : 0 < eps) : ∀ q ∈ l.head?, OnDiameter a c q ∧ a.pointOnArc eps q = true := by
  have hd : 0 < sqDist c a.center := by
    rcases (sqDist_nonneg c a.center).lt_or_eq with g | g
    · exact g
    · rw [← g] at hfar; simp at hfar; linarith
  unfold Arc.intersectLine at h
  dsimp only at h
  have hdet : (c.sub a.center).cross (a.center.sub a.center) = 0 := by simp [P.sub, P.cross]
  have hdx : ((a.center.sub a.center).x -. (c.sub a.center).x) = -(c.x - a.center.x) := by simp [P.sub]
  have hdy : ((a.center.sub a.center).y -. (c.sub a.center).y) = -(c.y - a.center.y) := by simp [P.sub]
  rw [hdet, hdx, hdy] at h
  set X := c.x - a.center.x with hX
  set Y := c.y - a.center.y with hY
  have hsq : sqDist c a.center = X ^ 2 + Y ^ 2 := rfl
  rw [hsq] at hfar hd
  have hdsc : a.radius *. a.radius *. (-X *. -X +. -Y *. -Y) -. (0 : ℝ) *. 0 = a.radius ^ 2 * (X ^ 2 + Y ^ 2) := by simp; ring
  rw [hdsc, if_neg, if_pos] at h
  · obtain ⟨x1, e1, h⟩ := bind_ok h
    obtain ⟨x2, e2, h⟩ := bind_ok h
    obtain ⟨y1, e3, h⟩ := bind_ok h
    obtain ⟨y2, e4, h⟩ := bind_ok h
    cases h
    intro q hq
    have hmem := List.mem_of_mem_head? hq
    rw [List.mem_filter] at hmem
    obtain ⟨hm, hk⟩ := hmem
    simp only [Bool.not_true, Bool.false_or, Bool.not_false, Bool.true_or, Bool.and_true] at hk
    refine ⟨?_, hk⟩
    have hD : (-X *. -X +. -Y *. -Y : ℝ) = X ^ 2 + Y ^ 2 := by simp; ring
    have hne : X ^ 2 + Y ^ 2 ≠ 0 := hd.ne'
    have hS := Real.sq_sqrt (mul_nonneg (sq_nonneg a.radius) hd.le)
    rw [hD] at e1 e2 e3 e4
    simp only [pdiv, real_beq, real_zero, hne, decide_false, Bool.false_eq_true, if_false, Except.ok.injEq, real_div, real_mul, real_add, real_sub, real_neg, real_abs, real_sqrt, real_lt,
      decide_eq_true_eq, real_ofInt] at e1 e2 e3 e4
    set S := Real.sqrt (a.radius ^ 2 * (X ^ 2 + Y ^ 2)) with hSd
    have hkey : ∀ k : ℝ, k ^ 2 = 1 → ∀ q : P ℝ, q.x - a.center.x = k * X * S / (X ^ 2 + Y ^ 2) → q.y - a.center.y = k * Y * S / (X ^ 2 + Y ^ 2) → OnDiameter a c q := by
      intro k hk q gx gy
      constructor
      · unfold sqDist
        rw [gx, gy]
        have : (k * X * S / (X ^ 2 + Y ^ 2)) ^ 2 + (k * Y * S / (X ^ 2 + Y ^ 2)) ^ 2 = k ^ 2 * S ^ 2 / (X ^ 2 + Y ^ 2) := by field_simp
        rw [this, hk, hS]; field_simp
      · simp only [crossOf]
        rw [gx, gy, ← hX, ← hY]; ring
    have habs : ∃ k : ℝ, k ^ 2 = 1 ∧ (if -Y < 0 then (((-1 : ℤ)) : ℝ) else (((1 : ℤ)) : ℝ)) = -k ∧ |(-Y)| = k * Y := by
      by_cases hy : -Y < 0
      · exact ⟨1, by norm_num, by rw [if_pos hy]; norm_num, by rw [abs_of_neg hy]; ring⟩
      · exact ⟨-1, by norm_num, by rw [if_neg hy]; norm_num, by rw [abs_of_nonneg (not_lt.1 hy)]; ring⟩
    obtain ⟨k, hk2, k1, k2⟩ := habs
    rw [k1] at e1 e2
    rw [k2] at e3 e4
    simp only [List.mem_cons, List.not_mem_nil, or_false] at hm
    rcases hm with rfl | rfl
    · refine hkey k hk2 _ ?_ ?_
      · simp only [P.add, real_add, ← e1]; ring
      · simp only [P.add, real_add, ← e3]; ring
    · refine hkey (-k) (by linarith [neg_sq k]) _ ?_ ?_
      · simp only [P.add, real_add, ← e2]; ring
      · simp only [P.add, real_add, ← e4]; ring
  · simp only [real_lt, real_zero, decide_eq_true_eq]; linarith
  · rw [isZero_iff, not_lt]; exact le_trans hfar (le_abs_self _)

/-- On the same side of the centre of the arc, the distance is the difference of the distances from it. -/
theorem diameter_distance {a : Arc ℝ} {c q : P ℝ} (hR : 0 ≤ a.radius) (h : OnDiameter a c q) (hd : 0 ≤ dotOf ⟨c.x - a.center.x, c.y - a.center.y⟩ ⟨q.x - a.center.x, q.y - a.center.y⟩) :
    Real.sqrt (sqDist q c) = |a.radius - Real.sqrt (sqDist a.center c)| := by
  obtain ⟨h1, h2⟩ := h
  have hD := Real.sq_sqrt (sqDist_nonneg a.center c)
  have hD0 := Real.sqrt_nonneg (sqDist a.center c)
  set D := Real.sqrt (sqDist a.center c)
  unfold crossOf at h2
  unfold dotOf at hd
  simp only at h2 hd
  set m := (c.x - a.center.x) * (q.x - a.center.x) + (c.y - a.center.y) * (q.y - a.center.y) with hm
  have hm2 : m ^ 2 = (a.radius * D) ^ 2 := by
    rw [mul_pow, hD, ← h1]
    unfold sqDist
    linear_combination -((c.x - a.center.x) * (q.y - a.center.y) - (c.y - a.center.y) * (q.x - a.center.x)) * h2
  have hmm : m = a.radius * D := (sq_eq_sq₀ hd (mul_nonneg hR hD0)).1 hm2
  rw [← Real.sqrt_sq_eq_abs]
  congr 1
  unfold sqDist at *
  linear_combination h1 - hD - 2 * hmm

/-- **C192**, two arcs: whatever fillet is returned, its centre is (up to the tolerance) as far from the centres of the arcs as that of a circle of the given radius that touches both
on the side to which the second turns; its ends are on the circles of the arcs, on the lines from its centre to their centres; and where the start is on the side of the centre of the
fillet, its radius is the one asked for, up to the tolerance. Missing: for arcs of more than half a turn an end can be on the other side of the arc (`C192_refuted_major`); fillets whose
centre is very near to the centre of an arc. -/
theorem C192_arc_arc_partial {eps r : ℝ} (heps : 0 < eps) (hr : 0 ≤ r) (a b f : Arc ℝ) (ha : a.OnCircle) (hb : b.OnCircle) (hRa : 0 < a.radius) (hRb : 0 < b.radius)
    (h : createFilletArc eps (.arc a) (.arc b) r = .ok (some f))
    (ha' : eps ≤ a.radius ^ 2 * sqDist f.center a.center) (hb' : eps ≤ b.radius ^ 2 * sqDist f.center b.center) :
    |reach a r (turnSide (passDir a a.p2) (passDir b b.p1)) - Real.sqrt (sqDist a.center f.center)| < eps ∧
    |reach b r (turnSide (passDir a a.p2) (passDir b b.p1)) - Real.sqrt (sqDist b.center f.center)| < eps ∧
    OnDiameter a f.center f.p1 ∧ OnDiameter b f.center f.p2 ∧
    f.radius = Real.sqrt (sqDist f.p1 f.center) ∧
    (0 ≤ dotOf ⟨f.center.x - a.center.x, f.center.y - a.center.y⟩ ⟨f.p1.x - a.center.x, f.p1.y - a.center.y⟩ → |f.radius - r| < eps) := by
  have h' : filletArcArc eps a b r = .ok (some f) := by simpa [createFilletArc] using h
  unfold filletArcArc at h'
  have hs := arcSide eps a b hRa hRb ha.2.2 hb.2.1
  have hσ := turnSide_sq (passDir a a.p2) (passDir b b.p1)
  set σ := turnSide (passDir a a.p2) (passDir b b.p1) with hσd
  obtain ⟨o1, h1, h'⟩ := bind_ok h'
  obtain ⟨o2, h2, h'⟩ := bind_ok h'
  obtain ⟨ix, h3, h'⟩ := bind_ok h'
  rw [hs] at h1 h2
  obtain ⟨r1, c1⟩ := offset_reach hσ h1
  obtain ⟨r2, c2⟩ := offset_reach hσ h2
  cases ix with
  | nil => cases h'
  | cons c rest =>
    dsimp only at h'
    obtain ⟨ix1, h4, h'⟩ := bind_ok h'
    obtain ⟨ix2, h5, h'⟩ := bind_ok h'
    obtain ⟨g1, g2⟩ := intersectArc_good h3 c rfl
    cases ix1 with
    | nil => cases h'
    | cons q1 t1 =>
      cases ix2 with
      | nil => cases h'
      | cons q2 t2 =>
        cases h'
        have k1 := onArc_distance g1
        have k2 := onArc_distance g2
        rw [r1, c1] at k1
        rw [r2, c2] at k2
        have d1 := (intersectLine_center h4 ha' heps q1 rfl).1
        have d2 := (intersectLine_center h5 hb' heps q2 rfl).1
        have hrad : (Arc.fromTwoPointsAndCenter eps q1 q2 c).radius = Real.sqrt (sqDist q1 c) := by
          simp only [Arc.fromTwoPointsAndCenter, distance_real]
        refine ⟨k1, k2, d1, d2, hrad, fun hd => ?_⟩
        rw [hrad, diameter_distance hRa.le d1 hd]
        show |(|a.radius - Real.sqrt (sqDist a.center c)|) - r| < eps
        have hreach : reach a r σ = a.radius - r ∨ reach a r σ = a.radius + r := by
          unfold reach; generalize (if a.angle < 0 then (-1 : ℝ) else 1) = z; split <;> simp
        rw [abs_lt] at k1 ⊢
        rcases hreach with g | g <;> rw [g] at k1 <;> rcases abs_cases (a.radius - Real.sqrt (sqDist a.center c)) with ⟨e, _⟩ | ⟨e, _⟩ <;> rw [e] <;> constructor <;> linarith [k1.1, k1.2]

/-! ### Examples -/

theorem inter_isSome {eps : ℝ} (heps : 0 < eps) (l o : Line ℝ) (A B : ℝ) (hd : eps ≤ |l.denom o|) (hA : l.numA o / l.denom o = A) (hB : l.numB o / l.denom o = B) (h1 : 0 ≤ A) (h2 : A ≤ 1)
    (h3 : 0 ≤ B) (h4 : B ≤ 1) : (l.intersection eps o true).isSome = true := by
  unfold Line.intersection Line.intersectionMu Line.muOutside
  simp only [real_lt, real_abs, real_div, real_neg, real_add, real_one, hA, hB, decide_eq_true_eq, not_lt.2 hd, if_false, Bool.true_or, Bool.true_and, Bool.or_eq_true]
  rw [if_neg]
  · rfl
  · rintro ((h | h) | (h | h)) <;> linarith

theorem inter_isNone {eps : ℝ} (l o : Line ℝ) (A B : ℝ) (hA : l.numA o / l.denom o = A) (hB : l.numB o / l.denom o = B)
    (h : A < -eps ∨ 1 + eps < A ∨ B < -eps ∨ 1 + eps < B) : (l.intersection eps o true).isSome = false := by
  unfold Line.intersection Line.intersectionMu Line.muOutside
  simp only [real_lt, real_abs, real_div, real_neg, real_add, real_one, hA, hB, decide_eq_true_eq, Bool.true_or, Bool.true_and, Bool.or_eq_true]
  split
  · rfl
  · rw [if_pos]
    · rfl
    · tauto

theorem onArc_eq {eps : ℝ} (heps : 0 < eps) (a : Arc ℝ) (p : P ℝ) (hR : 0 ≤ a.radius) (hp : sqDist a.center p = a.radius ^ 2) (b : Bool)
    (hb : (Line.intersection eps ⟨a.p1, a.p2⟩ ⟨a.center, p⟩ true).isSome = b) : a.pointOnArc eps p = if Real.pi < |a.angle| then !b else b := by
  unfold Arc.pointOnArc
  have : floatEq eps a.radius (a.center.distance p) = true := by
    rw [floatEq_iff, distance_real, hp, Real.sqrt_sq hR]; simpa using heps
  rw [this]
  cases hi : Line.intersection eps ⟨a.p1, a.p2⟩ ⟨a.center, p⟩ true with
  | none =>
    rw [hi] at hb
    subst hb
    by_cases hm : Real.pi < |a.angle| <;> simp [hm]
  | some q =>
    rw [hi] at hb
    subst hb
    by_cases hm : Real.pi < |a.angle| <;> simp [hm]

theorem offset_val (a : Arc ℝ) (ha : a.OnCircle) (hR : 0 < a.radius) (d : ℝ) :
    a.offset d = .ok ⟨⟨a.p1.x + (a.p1.x - a.center.x) * (d / a.radius), a.p1.y + (a.p1.y - a.center.y) * (d / a.radius)⟩,
      ⟨a.p2.x + (a.p2.x - a.center.x) * (d / a.radius), a.p2.y + (a.p2.y - a.center.y) * (d / a.radius)⟩, a.radius + d, a.angle, a.center⟩ := by
  have l1 : (⟨a.center, a.p1⟩ : Line ℝ).length = a.radius := by
    rw [length_real]; unfold segLen; rw [sqDist_comm, ha.2.1, Real.sqrt_sq hR.le]
  have l2 : (⟨a.center, a.p2⟩ : Line ℝ).length = a.radius := by
    rw [length_real]; unfold segLen; rw [sqDist_comm, ha.2.2, Real.sqrt_sq hR.le]
  unfold Arc.offset Line.extend pdiv
  rw [l1, l2]
  simp [hR.ne', bind, Except.bind, pure, Except.pure, P.add, P.sub, P.mul]

/-- Two circles of radius 15 with centres 24 apart. -/
theorem circles_15 {eps : ℝ} (h1 : eps ≤ 1) (heps : 0 < eps) : intersectCircle eps (⟨0, 0⟩ : P ℝ) 15 ⟨24, 0⟩ 15 = .ok [⟨12, 9⟩, ⟨12, -9⟩] := by
  have hlen : (⟨⟨0, 0⟩, ⟨24, 0⟩⟩ : Line ℝ).length = 24 := by
    rw [length_real]; unfold segLen sqDist
    norm_num
    rw [show (576 : ℝ) = 24 ^ 2 by norm_num, Real.sqrt_sq (by norm_num)]
  have hang : (⟨⟨0, 0⟩, ⟨24, 0⟩⟩ : Line ℝ).angle = 0 := by
    show PyTrig.atan2 ((0 : ℝ) - 0) (24 - 0) = 0
    rw [real_atan2]
    have : (⟨24 - 0, 0 - 0⟩ : ℂ) = ((24 : ℝ) : ℂ) := by apply Complex.ext <;> norm_num
    rw [this, Complex.arg_ofReal_of_nonneg (by norm_num)]
  have hz : isZero eps (24 : ℝ) = false := isZero_false_of (by norm_num; linarith)
  have hf : floatEq eps (24 : ℝ) (15 + 15) = false := by
    rw [Bool.eq_false_iff]; intro h; rw [floatEq_iff] at h; norm_num at h; linarith
  unfold intersectCircle
  dsimp only
  rw [hlen, hang]
  simp only [real_add, real_sub, real_mul, real_lt, hz, hf]
  norm_num [pdiv, bind, Except.bind, pure, Except.pure]
  rw [show (81 : ℝ) = 9 ^ 2 by norm_num, Real.sqrt_sq (by norm_num), rotate_real, rotate_real]
  simp [P.add]

/-- The points of a circle of radius 20 on the line through its centre and a point at distance 15. -/
theorem line_20 {eps : ℝ} (h1 : eps ≤ 1) (a : Arc ℝ) (hR : a.radius = 20) (X Y : ℝ) (hXY : X ^ 2 + Y ^ 2 = 15 ^ 2) (hY : Y ≠ 0) :
    a.intersectLine eps ⟨⟨a.center.x + X, a.center.y + Y⟩, a.center⟩ true =
      .ok (([⟨a.center.x + (if 0 < Y then 1 else -1) * X * (4/3), a.center.y + |Y| * (4/3)⟩,
        ⟨a.center.x - (if 0 < Y then 1 else -1) * X * (4/3), a.center.y - |Y| * (4/3)⟩] : List (P ℝ)).filter (fun p => a.pointOnArc eps p)) := by
  unfold Arc.intersectLine
  have hdet : ((⟨a.center.x + X, a.center.y + Y⟩ : P ℝ).sub a.center).cross (a.center.sub a.center) = 0 := by simp [P.sub, P.cross]
  have hdx : ((a.center.sub a.center).x -. ((⟨a.center.x + X, a.center.y + Y⟩ : P ℝ).sub a.center).x) = -X := by simp [P.sub]
  have hdy : ((a.center.sub a.center).y -. ((⟨a.center.x + X, a.center.y + Y⟩ : P ℝ).sub a.center).y) = -Y := by simp [P.sub]
  dsimp only
  rw [hdet, hdx, hdy, hR]
  have hD : (-X *. -X +. -Y *. -Y : ℝ) = 225 := by simp; linarith
  rw [hD]
  have hS : Real.sqrt (20 * 20 * 225 - 0 * 0) = 300 := by
    rw [show (20 : ℝ) * 20 * 225 - 0 * 0 = 300 ^ 2 by norm_num, Real.sqrt_sq (by norm_num)]
  have hz : isZero eps ((20 : ℝ) *. 20 *. 225 -. 0 *. 0) = false := isZero_false_of (by norm_num; linarith)
  rw [hz]
  simp only [Bool.false_eq_true, if_false, real_lt, real_zero, real_mul, real_sub, real_add, real_sqrt, hS]
  rw [if_pos (by norm_num)]
  have hcond : (if decide (-Y < 0) = true then (ofInt (-1) : ℝ) else ofInt 1) = -(if 0 < Y then 1 else -1) := by
    by_cases h : 0 < Y <;> simp [h]
  rw [hcond]
  generalize (if 0 < Y then (1 : ℝ) else -1) = k
  simp only [pdiv, real_beq, real_zero, bind, Except.bind, pure, Except.pure, real_div, real_neg, real_abs, abs_neg]
  norm_num
  congr 1
  congr 1
  · congr 1 <;> apply P.ext_real <;> simp [P.add] <;> ring
  · congr 1; apply P.ext_real <;> simp [P.add] <;> ring

theorem arccos_35 : Real.cos (Real.arccos (3/5)) = 3/5 ∧ Real.sin (Real.arccos (3/5)) = 4/5 ∧ 0 < Real.arccos (3/5) ∧ Real.arccos (3/5) < Real.pi := by
  refine ⟨Real.cos_arccos (by norm_num) (by norm_num), ?_, Real.arccos_pos.2 (by norm_num),
    lt_of_le_of_lt (Real.arccos_le_pi_div_two.2 (by norm_num)) (by linarith [Real.pi_pos])⟩
  rw [Real.sin_arccos, show (1 : ℝ) - (3/5) ^ 2 = (4/5) ^ 2 by norm_num, Real.sqrt_sq (by norm_num)]

/-- An arc of more than half a turn, clockwise from (-20, 0) to (12, -16), and one of less, from there to (4, 0). -/
noncomputable def bigArc : Arc ℝ := ⟨⟨-20, 0⟩, ⟨12, -16⟩, 20, -(Real.pi + Real.arccos (3/5)), ⟨0, 0⟩⟩
noncomputable def smallArc : Arc ℝ := ⟨⟨12, -16⟩, ⟨4, 0⟩, 20, -Real.arccos (3/5), ⟨24, 0⟩⟩

/-- The end of the big arc, from (20, 0). -/
noncomputable def endArc : Arc ℝ := ⟨⟨20, 0⟩, ⟨12, -16⟩, 20, -Real.arccos (3/5), ⟨0, 0⟩⟩

theorem arcs_sweep : bigArc.Sweeps ∧ smallArc.Sweeps ∧ endArc.Sweeps := by
  obtain ⟨hc, hs, -, -⟩ := arccos_35
  refine ⟨⟨⟨by norm_num [bigArc], by norm_num [bigArc, sqDist], by norm_num [bigArc, sqDist]⟩, ?_⟩, ⟨⟨by norm_num [smallArc], by norm_num [smallArc, sqDist], by norm_num [smallArc, sqDist]⟩, ?_⟩,
    ⟨⟨by norm_num [endArc], by norm_num [endArc, sqDist], by norm_num [endArc, sqDist]⟩, ?_⟩⟩
  · have e1 : Real.cos (-(Real.pi + Real.arccos (3/5))) = -3/5 := by rw [Real.cos_neg, add_comm, Real.cos_add_pi, hc]; norm_num
    have e2 : Real.sin (-(Real.pi + Real.arccos (3/5))) = 4/5 := by rw [Real.sin_neg, add_comm, Real.sin_add_pi, hs]; norm_num
    apply P.ext_real <;> simp only [bigArc, rotAbout, e1, e2] <;> norm_num
  · apply P.ext_real <;> simp only [smallArc, rotAbout, Real.cos_neg, Real.sin_neg, hc, hs] <;> norm_num
  · apply P.ext_real <;> simp only [endArc, rotAbout, Real.cos_neg, Real.sin_neg, hc, hs] <;> norm_num

theorem big_small (a : Arc ℝ) (h : a = bigArc ∨ a = endArc) : turnSide (passDir a a.p2) (passDir smallArc smallArc.p1) = -1 ∧ a.isClockwise = true ∧ smallArc.isClockwise = true := by
  have hp := arccos_35.2.2.1
  have h1 : -(Real.pi + Real.arccos (3/5)) < 0 := by linarith [Real.pi_pos]
  have h2 : -Real.arccos (3/5) < 0 := by linarith
  rcases h with rfl | rfl
  · refine ⟨?_, by simp only [bigArc, Arc.isClockwise, real_lt, real_zero, h1, decide_true], by simp only [smallArc, Arc.isClockwise, real_lt, real_zero, h2, decide_true]⟩
    unfold turnSide passDir crossOf bigArc smallArc
    simp only [h1, h2, if_true]; norm_num
  · refine ⟨?_, by simp only [endArc, Arc.isClockwise, real_lt, real_zero, h2, decide_true], by simp only [smallArc, Arc.isClockwise, real_lt, real_zero, h2, decide_true]⟩
    unfold turnSide passDir crossOf endArc smallArc
    simp only [h2, if_true]; norm_num

/-- The steps of `fillet_arc_arc` for these arcs. -/
theorem fillet_steps {eps : ℝ} (a : Arc ℝ) (h : a = bigArc ∨ a = endArc) (o1 o2 : Arc ℝ) (c q1 q2 : P ℝ) (t0 t1 t2 : List (P ℝ)) (h1 : a.offset (-5) = .ok o1) (h2 : smallArc.offset (-5) = .ok o2)
    (h3 : o1.intersectArc eps o2 true = .ok (c :: t0)) (h4 : a.intersectLine eps ⟨c, a.center⟩ true = .ok (q1 :: t1)) (h5 : smallArc.intersectLine eps ⟨c, smallArc.center⟩ true = .ok (q2 :: t2)) :
    createFilletArc eps (.arc a) (.arc smallArc) 5 = .ok (some (Arc.fromTwoPointsAndCenter eps q1 q2 c)) := by
  obtain ⟨e1, e2, e3⟩ := big_small a h
  have hR : 0 < a.radius := by rcases h with rfl | rfl <;> norm_num [bigArc, endArc]
  have hon : sqDist a.p2 a.center = a.radius ^ 2 := by rcases h with rfl | rfl <;> norm_num [bigArc, endArc, sqDist]
  have hs := arcSide eps a smallArc hR (by norm_num [smallArc]) hon (by norm_num [smallArc, sqDist])
  rw [e1] at hs
  simp only [createFilletArc]
  unfold filletArcArc
  dsimp only
  rw [hs, e2, e3]
  have : ((5 : ℝ) *. -1 *. ofInt (if true = true then 1 else -1)) = -5 := by norm_num
  rw [this, h1, h2]
  simp only [bind, Except.bind, h3, h4, h5, pure, Except.pure]

theorem small_points (R : ℝ) (p1 p2 c p : P ℝ) (φ : ℝ) (hR : 0 ≤ R) (hp : sqDist c p = R ^ 2) (b : Bool) (hb : (Line.intersection (1/1000000) ⟨p1, p2⟩ ⟨c, p⟩ true).isSome = b)
    (hφ : |φ| < Real.pi) : (Arc.mk p1 p2 R φ c).pointOnArc (1/1000000) p = b :=
  (onArc_eq (eps := 1/1000000) (by norm_num) ⟨p1, p2, R, φ, c⟩ p hR hp b hb).trans (if_neg (not_lt.2 hφ.le))

theorem big_points (R : ℝ) (p1 p2 c p : P ℝ) (φ : ℝ) (hR : 0 ≤ R) (hp : sqDist c p = R ^ 2) (b : Bool) (hb : (Line.intersection (1/1000000) ⟨p1, p2⟩ ⟨c, p⟩ true).isSome = b)
    (hφ : Real.pi < |φ|) : (Arc.mk p1 p2 R φ c).pointOnArc (1/1000000) p = !b :=
  (onArc_eq (eps := 1/1000000) (by norm_num) ⟨p1, p2, R, φ, c⟩ p hR hp b hb).trans (if_pos hφ)

theorem offset_arcs : smallArc.offset (-5) = .ok ⟨⟨15, -12⟩, ⟨9, 0⟩, 15, -Real.arccos (3/5), ⟨24, 0⟩⟩ ∧
    bigArc.offset (-5) = .ok ⟨⟨-15, 0⟩, ⟨9, -12⟩, 15, -(Real.pi + Real.arccos (3/5)), ⟨0, 0⟩⟩ ∧ endArc.offset (-5) = .ok ⟨⟨15, 0⟩, ⟨9, -12⟩, 15, -Real.arccos (3/5), ⟨0, 0⟩⟩ := by
  obtain ⟨h1, h2, h3⟩ := arcs_sweep
  rw [offset_val _ h1.1 (by norm_num [bigArc]), offset_val _ h2.1 (by norm_num [smallArc]), offset_val _ h3.1 (by norm_num [endArc])]
  norm_num [bigArc, smallArc, endArc]

/-- The centre of the fillet. -/
theorem fillet_centre (o1 : Arc ℝ) (hc : o1.center = ⟨0, 0⟩) (hR : o1.radius = 15) (hon : o1.pointOnArc (1/1000000) ⟨12, -9⟩ = true) :
    o1.intersectArc (1/1000000) ⟨⟨15, -12⟩, ⟨9, 0⟩, 15, -Real.arccos (3/5), ⟨24, 0⟩⟩ true = .ok [⟨12, -9⟩] := by
  obtain ⟨-, -, hp, hp'⟩ := arccos_35
  have hφ : |(-Real.arccos (3/5))| < Real.pi := by rw [abs_neg, abs_of_pos hp]; exact hp'
  have k1 := small_points 15 ⟨15, -12⟩ ⟨9, 0⟩ ⟨24, 0⟩ ⟨12, 9⟩ _ (by norm_num) (by norm_num [sqDist]) false
    (inter_isNone _ _ _ _ rfl rfl (by norm_num [Line.numA, Line.numB, Line.denom])) hφ
  have k2 := small_points 15 ⟨15, -12⟩ ⟨9, 0⟩ ⟨24, 0⟩ ⟨12, -9⟩ _ (by norm_num) (by norm_num [sqDist]) true
    (inter_isSome (by norm_num) _ _ _ _ (by norm_num [Line.denom]) rfl rfl (by norm_num [Line.numA, Line.denom]) (by norm_num [Line.numA, Line.denom]) (by norm_num [Line.numB, Line.denom])
      (by norm_num [Line.numB, Line.denom])) hφ
  unfold Arc.intersectArc
  rw [hc, hR]
  show (do let l ← intersectCircle (1/1000000) (⟨0, 0⟩ : P ℝ) 15 ⟨24, 0⟩ 15; _) = _
  rw [circles_15 (by norm_num) (by norm_num)]
  simp only [bind, Except.bind, if_true, k1, k2, hon, Bool.and_false, Bool.false_eq_true, if_false, List.getLast?_singleton, Bool.and_self, pure, Except.pure]

theorem small_ix : ∃ t, smallArc.intersectLine (1/1000000) ⟨⟨12, -9⟩, smallArc.center⟩ true = .ok (⟨8, -12⟩ :: t) := by
  obtain ⟨-, -, hp, hp'⟩ := arccos_35
  have hφ : |(-Real.arccos (3/5))| < Real.pi := by rw [abs_neg, abs_of_pos hp]; exact hp'
  have k1 : smallArc.pointOnArc (1/1000000) ⟨40, 12⟩ = false := small_points 20 ⟨12, -16⟩ ⟨4, 0⟩ ⟨24, 0⟩ ⟨40, 12⟩ _ (by norm_num) (by norm_num [sqDist]) false
    (inter_isNone _ _ _ _ rfl rfl (by norm_num [Line.numA, Line.numB, Line.denom])) hφ
  have k2 : smallArc.pointOnArc (1/1000000) ⟨8, -12⟩ = true := small_points 20 ⟨12, -16⟩ ⟨4, 0⟩ ⟨24, 0⟩ ⟨8, -12⟩ _ (by norm_num) (by norm_num [sqDist]) true
    (inter_isSome (by norm_num) _ _ _ _ (by norm_num [Line.denom]) rfl rfl (by norm_num [Line.numA, Line.denom]) (by norm_num [Line.numA, Line.denom]) (by norm_num [Line.numB, Line.denom])
      (by norm_num [Line.numB, Line.denom])) hφ
  have h := line_20 (eps := 1/1000000) (by norm_num) smallArc rfl (-12) (-9) (by norm_num) (by norm_num)
  have e0 : (⟨smallArc.center.x + -12, smallArc.center.y + -9⟩ : P ℝ) = ⟨12, -9⟩ := by norm_num [smallArc]
  have e1 : (⟨smallArc.center.x + (if (0 : ℝ) < -9 then 1 else -1) * -12 * (4/3), smallArc.center.y + |(-9)| * (4/3)⟩ : P ℝ) = ⟨40, 12⟩ := by norm_num [smallArc]
  have e2 : (⟨smallArc.center.x - (if (0 : ℝ) < -9 then 1 else -1) * -12 * (4/3), smallArc.center.y - |(-9)| * (4/3)⟩ : P ℝ) = ⟨8, -12⟩ := by norm_num [smallArc]
  rw [e0, e1, e2] at h
  rw [List.filter_cons_of_neg (by rw [k1]; simp), List.filter_cons_of_pos (by exact k2)] at h
  exact ⟨_, h⟩

/-- **C192** is false of the code for arcs of more than half a turn: the fillet of radius 5 between the big arc and the small one starts on the other side of the big arc, and its radius
is 35. -/
theorem C192_refuted_major : ∃ f, createFilletArc (1/1000000) (.arc bigArc) (.arc smallArc) 5 = .ok (some f) ∧ f.p1 = ⟨-16, 12⟩ ∧ f.p2 = ⟨8, -12⟩ ∧ f.center = ⟨12, -9⟩ ∧ f.radius = 35 := by
  obtain ⟨-, -, hp, hp'⟩ := arccos_35
  have hφ : Real.pi < |(-(Real.pi + Real.arccos (3/5)))| := by rw [abs_neg, abs_of_pos (by linarith [Real.pi_pos])]; linarith
  obtain ⟨t2, hix2⟩ := small_ix
  have k0 := big_points 15 ⟨-15, 0⟩ ⟨9, -12⟩ ⟨0, 0⟩ ⟨12, -9⟩ _ (by norm_num) (by norm_num [sqDist]) false
    (inter_isNone _ _ _ _ rfl rfl (by norm_num [Line.numA, Line.numB, Line.denom])) hφ
  have k1 : bigArc.pointOnArc (1/1000000) ⟨-16, 12⟩ = true := big_points 20 ⟨-20, 0⟩ ⟨12, -16⟩ ⟨0, 0⟩ ⟨-16, 12⟩ _ (by norm_num) (by norm_num [sqDist]) false
    (inter_isNone _ _ _ _ rfl rfl (by norm_num [Line.numA, Line.numB, Line.denom])) hφ
  have h := line_20 (eps := 1/1000000) (by norm_num) bigArc rfl 12 (-9) (by norm_num) (by norm_num)
  have e0 : (⟨bigArc.center.x + 12, bigArc.center.y + -9⟩ : P ℝ) = ⟨12, -9⟩ := by norm_num [bigArc]
  have e1 : (⟨bigArc.center.x + (if (0 : ℝ) < -9 then 1 else -1) * 12 * (4/3), bigArc.center.y + |(-9)| * (4/3)⟩ : P ℝ) = ⟨-16, 12⟩ := by norm_num [bigArc]
  rw [e0, e1] at h
  rw [List.filter_cons_of_pos (by exact k1)] at h
  refine ⟨_, fillet_steps bigArc (.inl rfl) _ _ _ _ _ _ _ _ offset_arcs.2.1 offset_arcs.1 (fillet_centre _ rfl rfl k0) h hix2, rfl, rfl, rfl, ?_⟩
  simp only [Arc.fromTwoPointsAndCenter, distance_real]
  rw [show sqDist (⟨-16, 12⟩ : P ℝ) ⟨12, -9⟩ = 35 ^ 2 by norm_num [sqDist], Real.sqrt_sq (by norm_num)]

/-- Non-vacuity of `C192_arc_arc_partial`: between the end of that arc alone and the small one the fillet is as asked for. -/
example : ∃ f, createFilletArc (1/1000000) (.arc endArc) (.arc smallArc) 5 = .ok (some f) ∧ f.p1 = ⟨16, -12⟩ ∧ f.p2 = ⟨8, -12⟩ ∧ f.center = ⟨12, -9⟩ ∧ f.radius = 5 ∧
    endArc.OnCircle ∧ smallArc.OnCircle ∧ (1/1000000 : ℝ) ≤ endArc.radius ^ 2 * sqDist f.center endArc.center ∧ (1/1000000 : ℝ) ≤ smallArc.radius ^ 2 * sqDist f.center smallArc.center := by
  obtain ⟨-, -, hp, hp'⟩ := arccos_35
  have hφ : |(-Real.arccos (3/5))| < Real.pi := by rw [abs_neg, abs_of_pos hp]; exact hp'
  obtain ⟨t2, hix2⟩ := small_ix
  have k0 := small_points 15 ⟨15, 0⟩ ⟨9, -12⟩ ⟨0, 0⟩ ⟨12, -9⟩ _ (by norm_num) (by norm_num [sqDist]) true
    (inter_isSome (by norm_num) _ _ _ _ (by norm_num [Line.denom]) rfl rfl (by norm_num [Line.numA, Line.denom]) (by norm_num [Line.numA, Line.denom]) (by norm_num [Line.numB, Line.denom])
      (by norm_num [Line.numB, Line.denom])) hφ
  have k1 : endArc.pointOnArc (1/1000000) ⟨-16, 12⟩ = false := small_points 20 ⟨20, 0⟩ ⟨12, -16⟩ ⟨0, 0⟩ ⟨-16, 12⟩ _ (by norm_num) (by norm_num [sqDist]) false
    (inter_isNone _ _ _ _ rfl rfl (by norm_num [Line.numA, Line.numB, Line.denom])) hφ
  have k2 : endArc.pointOnArc (1/1000000) ⟨16, -12⟩ = true := small_points 20 ⟨20, 0⟩ ⟨12, -16⟩ ⟨0, 0⟩ ⟨16, -12⟩ _ (by norm_num) (by norm_num [sqDist]) true
    (inter_isSome (by norm_num) _ _ _ _ (by norm_num [Line.denom]) rfl rfl (by norm_num [Line.numA, Line.denom]) (by norm_num [Line.numA, Line.denom]) (by norm_num [Line.numB, Line.denom])
      (by norm_num [Line.numB, Line.denom])) hφ
  have h := line_20 (eps := 1/1000000) (by norm_num) endArc rfl 12 (-9) (by norm_num) (by norm_num)
  have e0 : (⟨endArc.center.x + 12, endArc.center.y + -9⟩ : P ℝ) = ⟨12, -9⟩ := by norm_num [endArc]
  have e1 : (⟨endArc.center.x + (if (0 : ℝ) < -9 then 1 else -1) * 12 * (4/3), endArc.center.y + |(-9)| * (4/3)⟩ : P ℝ) = ⟨-16, 12⟩ := by norm_num [endArc]
  have e2 : (⟨endArc.center.x - (if (0 : ℝ) < -9 then 1 else -1) * 12 * (4/3), endArc.center.y - |(-9)| * (4/3)⟩ : P ℝ) = ⟨16, -12⟩ := by norm_num [endArc]
  rw [e0, e1, e2] at h
  rw [List.filter_cons_of_neg (by rw [k1]; simp), List.filter_cons_of_pos (by exact k2)] at h
  refine ⟨_, fillet_steps endArc (.inr rfl) _ _ _ _ _ _ _ _ offset_arcs.2.2 offset_arcs.1 (fillet_centre _ rfl rfl k0) h hix2, rfl, rfl, rfl, ?_, arcs_sweep.2.2.1, arcs_sweep.2.1.1, ?_, ?_⟩
  · simp only [Arc.fromTwoPointsAndCenter, distance_real]
    rw [show sqDist (⟨16, -12⟩ : P ℝ) ⟨12, -9⟩ = 5 ^ 2 by norm_num [sqDist], Real.sqrt_sq (by norm_num)]
  · norm_num [Arc.fromTwoPointsAndCenter, endArc, sqDist]
  · norm_num [Arc.fromTwoPointsAndCenter, smallArc, sqDist]

/-! ## Shortened arcs -/

theorem rotAbout_add (c p : P ℝ) (s t : ℝ) : rotAbout c t (rotAbout c s p) = rotAbout c (s + t) p := by
  apply P.ext_real <;> simp only [rotAbout, Real.cos_add, Real.sin_add] <;> ring

theorem rotAbout_sq (c p : P ℝ) (t : ℝ) : sqDist (rotAbout c t p) c = sqDist p c := by
  simp only [sqDist, rotAbout]
  linear_combination ((p.x - c.x) ^ 2 + (p.y - c.y) ^ 2) * Real.sin_sq_add_cos_sq t

theorem rotAbout_turn (c p : P ℝ) (t : ℝ) : rotAbout c (t + 2 * Real.pi) p = rotAbout c t p ∧ rotAbout c (t - 2 * Real.pi) p = rotAbout c t p := by
  constructor <;> simp [rotAbout]

/-- The angle between two points of a circle less than half a turn apart. -/
theorem angle_between {eps R : ℝ} (hR : 0 < R) (c p : P ℝ) (hp : sqDist p c = R ^ 2) (φ : ℝ) (hφ : |φ| < Real.pi) (hfar : eps ^ 2 ≤ sqDist p (rotAbout c φ p)) :
    c.angle2 eps p (rotAbout c φ p) = φ :=
  angle_to eps ⟨p, p, R, 0, c⟩ hR hp _ 1 φ one_pos hφ (by simp) (by simp) hfar

theorem arcPt_end (a : Arc ℝ) (h : a.Sweeps) : arcPt a |a.angle| = a.p2 := by
  rw [arcPt, ← h.2]
  congr 1
  by_cases hn : a.angle < 0
  · rw [if_pos hn, abs_of_neg hn]; ring
  · rw [if_neg hn, abs_of_nonneg (not_lt.1 hn)]

/-- **C192**, the arc after a fillet: if the fillet ends on the arc, less than half a turn after its start and before its end, the arc returned is the rest of it: it starts at the end of
the fillet, ends where the arc ended, has the same centre, radius and direction, and follows the arc. Missing: fillets that take away half a turn or more (`C192_refuted_turn`). -/
theorem C192_second_arc_partial {eps : ℝ} (a f : Arc ℝ) (h : a.Sweeps) (hR : 0 < a.radius) (θ : ℝ) (h0 : 0 < θ) (h1 : θ < |a.angle|) (hpi : θ < Real.pi) (hf : f.p2 = arcPt a θ)
    (hfar : eps ^ 2 ≤ sqDist a.p1 f.p2) :
    ∃ b, connectSecond eps f (.arc a) = .arc b ∧ b.p1 = f.p2 ∧ b.p2 = a.p2 ∧ b.center = a.center ∧ b.radius = a.radius ∧ b.Sweeps ∧
      |b.angle| = |a.angle| - θ ∧ (b.angle < 0 ↔ a.angle < 0) ∧ ∀ t, arcPt b t = arcPt a (θ + t) := by
  have hang : a.center.angle2 eps a.p1 f.p2 = if a.angle < 0 then -θ else θ := by
    rw [hf] at hfar ⊢
    refine angle_between hR _ _ h.1.2.1 _ ?_ hfar
    split
    · rw [abs_neg, abs_of_pos h0]; exact hpi
    · rw [abs_of_pos h0]; exact hpi
  have hon : sqDist f.p2 a.center = a.radius ^ 2 := by rw [hf, arcPt, rotAbout_sq]; exact h.1.2.1
  refine ⟨⟨f.p2, a.p2, a.radius, a.angle - (if a.angle < 0 then -θ else θ), a.center⟩, ?_, rfl, rfl, rfl, rfl, ⟨⟨h.1.1, hon, h.1.2.2⟩, ?_⟩, ?_, ?_, ?_⟩
  · simp only [connectSecond, hang, real_sub]
  · show rotAbout a.center _ f.p2 = a.p2
    rw [hf, arcPt, rotAbout_add, ← h.2]
    congr 1; ring
  all_goals try dsimp only
  · by_cases hn : a.angle < 0
    · rw [if_pos hn, abs_of_neg hn] at *
      rw [abs_of_neg (by linarith)]; ring
    · rw [if_neg hn, abs_of_nonneg (not_lt.1 hn)] at *
      rw [abs_of_nonneg (by linarith)]
  · by_cases hn : a.angle < 0
    · rw [abs_of_neg hn] at h1
      simp only [hn, if_true, iff_true]; linarith
    · rw [abs_of_nonneg (not_lt.1 hn)] at h1
      simp only [hn, if_false, iff_false, not_lt]; linarith
  · intro t
    have hs : (a.angle - (if a.angle < 0 then -θ else θ) < 0) ↔ a.angle < 0 := by
      by_cases hn : a.angle < 0
      · rw [abs_of_neg hn] at h1
        simp only [hn, if_true, iff_true]; linarith
      · rw [abs_of_nonneg (not_lt.1 hn)] at h1
        simp only [hn, if_false, iff_false, not_lt]; linarith
    unfold arcPt
    simp only [hs, hf, arcPt]
    rw [rotAbout_add]
    congr 1
    split <;> ring

/-- **C192**, the arc before a fillet: if the fillet starts on the arc, less than half a turn before its end and after its start, the arc returned is the first part of it: it starts where
the arc started, ends at the start of the fillet, has the same centre, radius and direction, and follows the arc. Missing: fillets that take away half a turn or more
(`C192_refuted_turn`). -/
theorem C192_first_arc_partial {eps : ℝ} (a f : Arc ℝ) (h : a.Sweeps) (hR : 0 < a.radius) (θ : ℝ) (h0 : 0 < θ) (h1 : θ < |a.angle|) (hpi : θ < Real.pi)
    (hf : f.p1 = arcPt a (|a.angle| - θ)) (hfar : eps ^ 2 ≤ sqDist f.p1 a.p2) :
    ∃ b, connectFirst eps (.arc a) f = .arc b ∧ b.p1 = a.p1 ∧ b.p2 = f.p1 ∧ b.center = a.center ∧ b.radius = a.radius ∧ b.Sweeps ∧
      |b.angle| = |a.angle| - θ ∧ (b.angle < 0 ↔ a.angle < 0) ∧ ∀ t, arcPt b t = arcPt a t := by
  have hon : sqDist f.p1 a.center = a.radius ^ 2 := by rw [hf, arcPt, rotAbout_sq]; exact h.1.2.1
  have hp2 : a.p2 = rotAbout a.center (if a.angle < 0 then -θ else θ) f.p1 := by
    rw [hf, arcPt, rotAbout_add, ← h.2]
    congr 1
    by_cases hn : a.angle < 0
    · rw [if_pos hn, if_pos hn, abs_of_neg hn]; ring
    · rw [if_neg hn, if_neg hn, abs_of_nonneg (not_lt.1 hn)]; ring
  have hang : a.center.angle2 eps f.p1 a.p2 = if a.angle < 0 then -θ else θ := by
    rw [hp2] at hfar ⊢
    refine angle_between hR _ _ hon _ ?_ hfar
    split
    · rw [abs_neg, abs_of_pos h0]; exact hpi
    · rw [abs_of_pos h0]; exact hpi
  have hs : (a.angle - (if a.angle < 0 then -θ else θ) < 0) ↔ a.angle < 0 := by
    by_cases hn : a.angle < 0
    · rw [abs_of_neg hn] at h1
      simp only [hn, if_true, iff_true]; linarith
    · rw [abs_of_nonneg (not_lt.1 hn)] at h1
      simp only [hn, if_false, iff_false, not_lt]; linarith
  refine ⟨⟨a.p1, f.p1, a.radius, a.angle - (if a.angle < 0 then -θ else θ), a.center⟩, ?_, rfl, rfl, rfl, rfl, ⟨⟨h.1.1, h.1.2.1, hon⟩, ?_⟩, ?_, hs, ?_⟩
  · simp only [connectFirst, hang, real_sub]
  · show rotAbout a.center _ a.p1 = f.p1
    rw [hf, arcPt]
    congr 1
    by_cases hn : a.angle < 0
    · rw [if_pos hn, if_pos hn, abs_of_neg hn]; ring
    · rw [if_neg hn, if_neg hn, abs_of_nonneg (not_lt.1 hn)]
  all_goals try dsimp only
  · by_cases hn : a.angle < 0
    · rw [if_pos hn, abs_of_neg hn] at *
      rw [abs_of_neg (by linarith)]; ring
    · rw [if_neg hn, abs_of_nonneg (not_lt.1 hn)] at *
      rw [abs_of_nonneg (by linarith)]
  · intro t
    unfold arcPt
    simp only [hs]

/-- **C192** as stated is false of the code: for every arc and every fillet that ends on it more than half a turn after its start (and less than a whole turn), the arc returned goes from the
end of the fillet to the end of the arc and once more round the whole circle. -/
theorem C192_refuted_turn {eps : ℝ} (a f : Arc ℝ) (h : a.Sweeps) (hR : 0 < a.radius) (θ : ℝ) (h0 : Real.pi < θ) (h1 : θ ≤ |a.angle|) (hpi : θ < 2 * Real.pi) (hf : f.p2 = arcPt a θ)
    (hfar : eps ^ 2 ≤ sqDist a.p1 f.p2) :
    ∃ b, connectSecond eps f (.arc a) = .arc b ∧ b.p1 = f.p2 ∧ b.p2 = a.p2 ∧ |b.angle| = |a.angle| - θ + 2 * Real.pi := by
  have hpp := Real.pi_pos
  have hang : a.center.angle2 eps a.p1 f.p2 = if a.angle < 0 then 2 * Real.pi - θ else θ - 2 * Real.pi := by
    have : f.p2 = rotAbout a.center (if a.angle < 0 then 2 * Real.pi - θ else θ - 2 * Real.pi) a.p1 := by
      rw [hf, arcPt]
      split
      · rw [show 2 * Real.pi - θ = -θ + 2 * Real.pi by ring, (rotAbout_turn _ _ _).1]
      · rw [(rotAbout_turn _ _ _).2]
    rw [this] at hfar ⊢
    refine angle_between hR _ _ h.1.2.1 _ ?_ hfar
    split <;> rw [abs_lt] <;> constructor <;> linarith
  refine ⟨⟨f.p2, a.p2, a.radius, a.angle - (if a.angle < 0 then 2 * Real.pi - θ else θ - 2 * Real.pi), a.center⟩, ?_, rfl, rfl, ?_⟩
  · simp only [connectSecond, hang, real_sub]
  · simp only
    by_cases hn : a.angle < 0
    · rw [if_pos hn, abs_of_neg hn] at *
      rw [abs_of_neg (by linarith)]; ring
    · rw [if_neg hn, abs_of_nonneg (not_lt.1 hn)] at *
      rw [abs_of_nonneg (by linarith)]; ring

/-- Non-vacuity: a quarter of the half circle is taken away at the start; the rest is a quarter circle. -/
example : ∃ b, connectSecond (1/1000000) ⟨⟨9, -1⟩, ⟨0, 8⟩, 1, 1, ⟨0, 0⟩⟩ (.arc halfCircle) = .arc b ∧ b.p1 = ⟨0, 8⟩ ∧ b.p2 = ⟨-8, 0⟩ ∧ |b.angle| = Real.pi / 2 := by
  have hpp := Real.pi_pos
  have e : arcPt halfCircle (Real.pi / 2) = ⟨0, 8⟩ := by
    have : ¬ (Real.pi < 0) := not_lt.2 hpp.le
    apply P.ext_real <;> simp [arcPt, rotAbout, halfCircle, this]
  have ha : |halfCircle.angle| = Real.pi := abs_of_pos hpp
  obtain ⟨b, h1, h2, h3, -, -, -, h4, -⟩ := C192_second_arc_partial (eps := 1/1000000) halfCircle ⟨⟨9, -1⟩, ⟨0, 8⟩, 1, 1, ⟨0, 0⟩⟩ halfCircle_sweeps (by norm_num [halfCircle]) (Real.pi / 2)
    (by linarith) (by rw [ha]; linarith) (by linarith) e.symm (by norm_num [sqDist, halfCircle])
  exact ⟨b, h1, h2, h3, by rw [h4, ha]; ring⟩

/-- Non-vacuity: three quarters of a circle are taken away; the arc returned is a whole turn longer than the quarter that is left. -/
example : ∃ b, connectSecond (1/1000000) ⟨⟨9, -1⟩, ⟨0, -8⟩, 1, 1, ⟨0, 0⟩⟩ (.arc ⟨⟨8, 0⟩, ⟨8, 0⟩, 8, 2 * Real.pi, ⟨0, 0⟩⟩) = .arc b ∧ |b.angle| = 5 / 2 * Real.pi := by
  have hpp := Real.pi_pos
  have hn : ¬ (2 * Real.pi < 0) := by linarith
  have e : arcPt ⟨⟨8, 0⟩, ⟨8, 0⟩, 8, 2 * Real.pi, ⟨0, 0⟩⟩ (3 / 2 * Real.pi) = ⟨0, -8⟩ := by
    have c : (3 / 2 * Real.pi) = Real.pi / 2 + Real.pi := by ring
    apply P.ext_real <;> simp only [arcPt, rotAbout, hn, if_false, c, Real.cos_add_pi, Real.sin_add_pi, Real.cos_pi_div_two, Real.sin_pi_div_two] <;> norm_num
  have ha : |2 * Real.pi| = 2 * Real.pi := abs_of_pos (by linarith)
  obtain ⟨b, h1, h2, h3, h4⟩ := C192_refuted_turn (eps := 1/1000000) ⟨⟨8, 0⟩, ⟨8, 0⟩, 8, 2 * Real.pi, ⟨0, 0⟩⟩ ⟨⟨9, -1⟩, ⟨0, -8⟩, 1, 1, ⟨0, 0⟩⟩
    ⟨⟨by norm_num, by norm_num [sqDist], by norm_num [sqDist]⟩, by apply P.ext_real <;> simp [rotAbout]⟩ (by norm_num) (3 / 2 * Real.pi)
    (by linarith) (by rw [ha]; linarith) (by linarith) e.symm (by norm_num [sqDist])
  exact ⟨b, h1, by rw [h4, ha]; ring⟩

end Verif.Cam
