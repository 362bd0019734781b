import Verif.Geom.Smooth
import Verif.Geom.Props9
import Verif.Geom.Props14

/-!
# C118: smooth curves through the vertices of a path
-/

set_option linter.unusedSectionVars false

namespace Verif.Geom
open Verif PyFloat PyTrig

/-! ## Specification -/

/-- Specification: the point at distance `m` from `p` in the direction `w`. -/
noncomputable def ahead (p : P ℝ) (w m : ℝ) : P ℝ := ⟨p.x + m * Real.cos w, p.y + m * Real.sin w⟩

/-- Specification: the curve starts in the direction `w`: its first control point is ahead of its start. -/
def Leaves (b : Bez ℝ) (w : ℝ) : Prop := ∃ m, 0 < m ∧ b.c1 = ahead b.p1 w m

/-- Specification: the curve arrives in the direction `w`: its second control point is behind its end. -/
def Arrives (b : Bez ℝ) (w : ℝ) : Prop := ∃ m, 0 < m ∧ b.p2 = ahead b.c2 w m

/-- Specification: the second curve starts where the first one ends, in the same direction. -/
def SmoothJoin (b c : Bez ℝ) : Prop := b.p2 = c.p1 ∧ ∃ w, Arrives b w ∧ Leaves c w

/-- Specification: the length of a segment. -/
noncomputable def lengthOf : Shape ℝ → ℝ
  | .arc a => |a.radius * a.angle|
  | s => √(sqDist s.p1 s.p2)

/-- Specification: the middle of a segment. -/
noncomputable def middleOf : Shape ℝ → P ℝ
  | .arc a => rotAbout a.center (1 / 2 * a.angle) a.p1
  | s => segPt ⟨s.p1, s.p2⟩ (1 / 2)

/-- Specification: a line with ends that are different, to the tolerance, or an arc of less than half a turn with such ends. -/
def Proper (eps : ℝ) : Shape ℝ → Prop
  | .line l => eps ^ 2 ≤ sqDist l.p1 l.p2
  | .arc a => eps ^ 2 ≤ sqDist a.p1 a.p2 ∧ a.OnCircle ∧ 0 < a.radius ∧ 0 < |a.angle| ∧ |a.angle| < Real.pi
  | _ => False

/-- Specification: how far the control points reach beyond the vertex between two segments. -/
noncomputable def reach (k : ℝ) (s : Shape ℝ) : Shape ℝ → ℝ
  | .arc a => a.radius * Real.tan (|a.angle| / 2) * (5522847498308 / 10 ^ 13)
  | t => lengthOf t / (lengthOf s + lengthOf t) * √(sqDist (middleOf s) (middleOf t)) * (6 / 5 * k)

/-- Specification: the second segment starts where the first one ends; it does not go back over it, and the vertex can be rounded visibly. -/
def Rounds (eps k : ℝ) (s t : Shape ℝ) : Prop := s.p2 = t.p1 ∧ middleOf s ≠ middleOf t ∧ eps ≤ reach k s t

/-! ## One curve -/

theorem line_angle_real (l : Line ℝ) : ∃ w, l.angle = w := ⟨_, rfl⟩

theorem fromPolar_ahead (p : P ℝ) (m w : ℝ) : p.add (P.fromPolar m w) = ahead p w m := by
  apply P.ext_real <;> simp [P.add, P.fromPolar, ahead]

theorem fromPolar_behind (p : P ℝ) (m w : ℝ) : ahead (p.add (P.fromPolar m (w + Real.pi))) w m = p := by
  apply P.ext_real <;> simp [P.add, P.fromPolar, ahead, Real.cos_add_pi, Real.sin_add_pi]

theorem ahead_sqDist (p : P ℝ) (w m : ℝ) : sqDist (ahead p w m) p = m ^ 2 := by
  have := Real.sin_sq_add_cos_sq w
  unfold sqDist ahead
  dsimp only
  linear_combination m ^ 2 * this

theorem lengthOf_pos {eps : ℝ} (heps : 0 < eps) {s : Shape ℝ} (h : Proper eps s) : 0 < lengthOf s := by
  cases s with
  | line l => exact Real.sqrt_pos.2 (lt_of_lt_of_le (by positivity) h)
  | arc a => exact abs_pos.2 (mul_ne_zero h.2.2.1.ne' (abs_pos.1 h.2.2.2.1))
  | bez b => exact h.elim
  | other p q => exact h.elim

theorem lineArcLength_real {eps : ℝ} {s : Shape ℝ} (h : Proper eps s) : s.lineArcLength = .ok (lengthOf s) := by
  cases s with
  | line l =>
    unfold Shape.lineArcLength
    simp only [length_real]
    rfl
  | arc a =>
    unfold Shape.lineArcLength
    simp only [Arc.length, real_abs, real_mul]
    rfl
  | bez b => exact h.elim
  | other p q => exact h.elim

theorem lineArcMidpoint_real {eps : ℝ} {s : Shape ℝ} (h : Proper eps s) : s.lineArcMidpoint = .ok (middleOf s) := by
  cases s with
  | line l =>
    unfold Shape.lineArcMidpoint
    simp only [middleOf, Except.ok.injEq]
    apply P.ext_real <;> simp [Line.midpoint, P.add, P.mul, segPt, lit_real, Shape.p1, Shape.p2] <;> ring
  | arc a =>
    obtain ⟨-, hon, hr, ha, hpi⟩ := h
    unfold Shape.lineArcMidpoint
    simp only [middleOf, Except.ok.injEq]
    unfold Arc.midpoint
    rw [lit_real]
    have := (C62_points_on_arc a hon (1 / 2)).2.2.2.1 (abs_pos.1 ha) (by norm_num) (by norm_num)
    norm_num at this ⊢
    exact this
  | bez b => exact h.elim
  | other p q => exact h.elim

theorem arcMag_real (a : Arc ℝ) : arcMag a = a.radius * Real.tan (|a.angle| / 2) * (5522847498308 / 10 ^ 13) := by
  unfold arcMag
  simp only [real_mul, real_tan, real_div, real_abs, real_ofInt, lit_real]
  push_cast
  ring

theorem arcMag_pos {eps : ℝ} {a : Arc ℝ} (h : Proper eps (.arc a)) : 0 < arcMag a := by
  rw [arcMag_real]
  have : 0 < Real.tan (|a.angle| / 2) := Real.tan_pos_of_pos_of_lt_pi_div_two (by linarith [h.2.2.2.1]) (by linarith [h.2.2.2.2])
  have := h.2.2.1
  positivity

/-- One smoothing curve. -/
theorem smoothingCurve_spec {eps k : ℝ} (heps : 0 < eps) (hk : 0 < k) {s t : Shape ℝ} (hs : Proper eps s) (ht : Proper eps t) (hr : Rounds eps k s t) :
    ∃ w n, eps ≤ n ∧ (∃ m, 0 < m ∧ middleOf t = ahead (middleOf s) w m) ∧ ∀ cp, ∃ c, smoothingCurve eps s (some t) (some cp) k = .ok (c, ahead t.p1 w n) ∧ c.p1 = s.p1 ∧ c.p2 = s.p2 ∧ Arrives c w ∧
      ∀ w0 n0, eps ≤ n0 → cp = ahead s.p1 w0 n0 → Leaves c w0 := by
  obtain ⟨hjoin, hmid, hreach⟩ := hr
  have h1 := lengthOf_pos heps hs
  have h2 := lengthOf_pos heps ht
  set ratio := lengthOf s / (lengthOf s + lengthOf t) with hratio
  have hd : pdiv (lengthOf s) (lengthOf s +. lengthOf t) = .ok ratio := by
    unfold pdiv
    rw [if_neg (by simp; linarith)]
    rfl
  have hr0 : 0 < ratio := by positivity
  have hr1 : 1 - ratio = lengthOf t / (lengthOf s + lengthOf t) := by rw [hratio]; field_simp; ring
  set mid : Line ℝ := ⟨middleOf s, middleOf t⟩ with hmiddef
  have hlen : mid.length = √(sqDist (middleOf s) (middleOf t)) := by rw [length_real]; rfl
  have hlpos : 0 < mid.length := by
    rw [hlen]
    apply Real.sqrt_pos.2
    rcases lt_or_eq_of_le (sqDist_nonneg (middleOf s) (middleOf t)) with h | h
    · exact h
    · exfalso
      apply hmid
      unfold sqDist at h
      apply P.ext_real
      · nlinarith [sq_nonneg ((middleOf s).x - (middleOf t).x), sq_nonneg ((middleOf s).y - (middleOf t).y)]
      · nlinarith [sq_nonneg ((middleOf s).x - (middleOf t).x), sq_nonneg ((middleOf s).y - (middleOf t).y)]
  have hnext : cp1NextMag t true ratio mid.length (lit 12 1 *. k) = reach k s t := by
    cases t with
    | arc a => simp only [cp1NextMag, reach]; exact arcMag_real a
    | line l =>
      simp only [cp1NextMag, reach, real_mul, real_sub, real_one, lit_real]
      rw [hr1, hlen]; norm_num
    | bez b => exact ht.elim
    | other p q => exact ht.elim
  have hgen : ∀ cp, smoothingCurve eps s (some t) (some cp) k = .ok
      (startCurve eps s (cp2Mag eps s t cp true ratio mid.length (lit 12 1 *. k)).1
        (s.p2.add (P.fromPolar (cp2Mag eps s t cp true ratio mid.length (lit 12 1 *. k)).2 (mid.angle +. pi))),
       ahead t.p1 mid.angle (reach k s t)) := by
    intro cp
    unfold smoothingCurve
    simp only [lineArcLength_real hs, lineArcLength_real ht, lineArcMidpoint_real hs, lineArcMidpoint_real ht, bind, Except.bind, hd, pure, Except.pure, Option.getD_some]
    rw [← hmiddef, hnext, ← fromPolar_ahead, hjoin]
  have hdir : middleOf t = ahead (middleOf s) mid.angle mid.length := by
    have hv : (mid.p2.sub mid.p1).x ^ 2 + (mid.p2.sub mid.p1).y ^ 2 = mid.length ^ 2 := by
      rw [hlen, Real.sq_sqrt (sqDist_nonneg _ _)]
      simp only [hmiddef, P.sub, real_sub, sqDist]; ring
    obtain ⟨e1, e2⟩ := polar_atan2 _ _ hlpos.le hv
    have e3 : mid.angle = (mid.p2.sub mid.p1).angle := rfl
    rw [← e3] at e1 e2
    apply P.ext_real
    · show _ = (middleOf s).x + mid.length * Real.cos mid.angle
      rw [e1]; simp [hmiddef, P.sub]
    · show _ = (middleOf s).y + mid.length * Real.sin mid.angle
      rw [e2]; simp [hmiddef, P.sub]
  refine ⟨mid.angle, reach k s t, hreach, ⟨_, hlpos, hdir⟩, fun cp => ⟨_, hgen cp, ?_⟩⟩
  have hmag : 0 < (cp2Mag eps s t cp true ratio mid.length (lit 12 1 *. k)).2 := by
    cases s with
    | arc a =>
      have := arcMag_pos hs
      unfold cp2Mag
      dsimp only
      split
      · simp only [lit_real, real_mul]; positivity
      · exact this
    | line l => simp only [cp2Mag, real_mul, lit_real]; positivity
    | bez b => exact hs.elim
    | other p q => exact hs.elim
  have hfirst : ∀ w0 n0, eps ≤ n0 → cp = ahead s.p1 w0 n0 →
      ∃ n1, eps ≤ n1 ∧ (cp2Mag eps s t cp true ratio mid.length (lit 12 1 *. k)).1 = ahead s.p1 w0 n1 := by
    intro w0 n0 hn hcp
    cases s with
    | arc a =>
      unfold cp2Mag
      dsimp only
      split
      · refine ⟨15 / 10 * n0, by linarith, ?_⟩
        rw [hcp]
        apply P.ext_real <;> simp [P.add, P.mul, P.sub, ahead, lit_real, Shape.p1] <;> ring
      · exact ⟨n0, hn, hcp⟩
    | line l => exact ⟨n0, hn, hcp⟩
    | bez b => exact hs.elim
    | other p q => exact hs.elim
  generalize (cp2Mag eps s t cp true ratio mid.length (lit 12 1 *. k)) = c at hmag hfirst ⊢
  obtain ⟨c1, m⟩ := c
  dsimp only at hmag hfirst ⊢
  set cp2 := s.p2.add (P.fromPolar m (mid.angle +. pi)) with hcp2
  have hbehind : s.p2 = ahead cp2 mid.angle m := by rw [hcp2]; exact (fromPolar_behind _ _ _).symm
  by_cases hz : c1.eq eps s.p1 = true
  · have hno : ∀ w0 n0, eps ≤ n0 → ¬ cp = ahead s.p1 w0 n0 := by
      intro w0 n0 hn hcp
      obtain ⟨n1, hn1, h⟩ := hfirst w0 n0 hn hcp
      rw [eq_iff, h, ahead_sqDist] at hz
      nlinarith
    cases s with
    | arc a =>
      have he : startCurve eps (.arc a) c1 cp2 = ⟨a.p1, (bezierCircularArc a).c1, cp2, a.p2⟩ := by unfold startCurve; rw [if_pos hz]
      rw [he]
      exact ⟨rfl, rfl, ⟨m, hmag, hbehind⟩, fun w0 n0 hn hcp => (hno w0 n0 hn hcp).elim⟩
    | line l =>
      have he : startCurve eps (.line l) c1 cp2 = Bez.fromQuadratic l.p1 cp2 l.p2 := by unfold startCurve; rw [if_pos hz]; rfl
      rw [he]
      refine ⟨rfl, rfl, ⟨2 / 3 * m, by positivity, ?_⟩, fun w0 n0 hn hcp => (hno w0 n0 hn hcp).elim⟩
      have hx : l.p2.x = cp2.x + m * Real.cos mid.angle := congrArg P.x hbehind
      have hy : l.p2.y = cp2.y + m * Real.sin mid.angle := congrArg P.y hbehind
      apply P.ext_real
      · simp [Bez.fromQuadratic, P.add, P.mul, P.sub, ahead]; linear_combination (2 / 3) * hx
      · simp [Bez.fromQuadratic, P.add, P.mul, P.sub, ahead]; linear_combination (2 / 3) * hy
    | bez b => exact hs.elim
    | other p q => exact hs.elim
  · have he : startCurve eps s c1 cp2 = ⟨s.p1, c1, cp2, s.p2⟩ := by unfold startCurve; rw [if_neg hz]
    rw [he]
    refine ⟨rfl, rfl, ⟨m, hmag, hbehind⟩, fun w0 n0 hn hcp => ?_⟩
    obtain ⟨n1, hn1, h⟩ := hfirst w0 n0 hn hcp
    exact ⟨n1, by linarith, h⟩

/-! ## Chains of curves -/

/-- The curves follow each other, from the direction `u` to the direction `v`. -/
def Threads : ℝ → List (Bez ℝ) → ℝ → Prop
  | u, [], v => u = v
  | u, c :: cs, v => Leaves c u ∧ ∃ w, Arrives c w ∧ Threads w cs v

/-- The ends of the curves. -/
def bezEnds (l : List (Bez ℝ)) : List (P ℝ × P ℝ) := l.map fun c => (c.p1, c.p2)

/-- The ends of the segments. -/
def shapeEnds (l : List (Shape ℝ)) : List (P ℝ × P ℝ) := l.map fun s => (s.p1, s.p2)

theorem proper_ends {eps : ℝ} {s : Shape ℝ} (h : Proper eps s) : s.isBez = false ∧ s.p1.ne eps s.p2 = true := by
  have : ∀ p q : P ℝ, eps ^ 2 ≤ sqDist p q → p.ne eps q = true := by
    intro p q hpq
    show (!p.eq eps q) = true
    rw [(eq_false_iff eps p q).2 hpq]
    rfl
  cases s with
  | line l => exact ⟨rfl, this _ _ h⟩
  | arc a => exact ⟨rfl, this _ _ h.1⟩
  | bez b => exact h.elim
  | other p q => exact h.elim

theorem threads_append {u w v : ℝ} {l r : List (Bez ℝ)} (h : Threads u l w) (h' : Threads w r v) : Threads u (l ++ r) v := by
  induction l generalizing u with
  | nil => cases h; exact h'
  | cons c cs ih =>
    obtain ⟨h1, x, h2, h3⟩ := h
    exact ⟨h1, x, h2, ih h3⟩

/-- The loop from a segment with an incoming direction. -/
theorem smoothLoop_spec {eps k : ℝ} (heps : 0 < eps) (hk : 0 < k) (rest : List (Shape ℝ)) :
    ∀ (s : Shape ℝ) (acc : List (Bez ℝ)) (u n : ℝ), eps ≤ n → (∀ t ∈ s :: rest, Proper eps t) → List.IsChain (Rounds eps k) (s :: rest) →
      ∃ cs last v m, smoothLoop eps k acc s (ahead s.p1 u n) rest = .ok (acc ++ cs, some (last, ahead last.p1 v m)) ∧ eps ≤ m ∧ Threads u cs v ∧
        (s :: rest).getLast? = some last ∧ bezEnds cs ++ [(last.p1, last.p2)] = shapeEnds (s :: rest) := by
  induction rest with
  | nil =>
    intro s acc u n hn _ _
    exact ⟨[], s, u, n, by simp [smoothLoop], hn, rfl, rfl, rfl⟩
  | cons t rest ih =>
    intro s acc u n hn hp hc
    have hs := hp s (by simp)
    have ht := hp t (by simp)
    obtain ⟨hr, hc'⟩ := List.isChain_cons_cons.1 hc
    obtain ⟨w, n', hn', -, hcurve⟩ := smoothingCurve_spec heps hk hs ht hr
    obtain ⟨c, h1, h2, h3, h4, h5⟩ := hcurve (ahead s.p1 u n)
    obtain ⟨cs, last, v, m, g1, g2, g3, g4, g5⟩ := ih t (acc ++ [c]) w n' hn' (fun x hx => hp x (by simp [hx])) hc'
    refine ⟨c :: cs, last, v, m, ?_, g2, ⟨h5 u n hn rfl, w, h4, g3⟩, ?_, ?_⟩
    · unfold smoothLoop
      rw [(proper_ends hs).1, (proper_ends ht).1]
      simp only [Bool.or_self, Bool.false_eq_true, if_false, h1, bind, Except.bind]
      rw [h2, h3, (proper_ends hs).2, if_pos rfl, g1]
      simp
    · rw [← g4]; simp
    · show (c.p1, c.p2) :: (bezEnds cs ++ _) = (s.p1, s.p2) :: shapeEnds (t :: rest)
      rw [g5, h2, h3]

theorem threads_chain {u v : ℝ} {c : Bez ℝ} {cs : List (Bez ℝ)} (hc : Arrives c u) (h : Threads u cs v)
    (hends : List.IsChain (fun p q : P ℝ × P ℝ => p.2 = q.1) (bezEnds (c :: cs))) : List.IsChain SmoothJoin (c :: cs) ∧ ∃ d, (c :: cs).getLast? = some d ∧ Arrives d v := by
  induction cs generalizing c u with
  | nil => cases h; exact ⟨List.isChain_singleton _, c, rfl, hc⟩
  | cons d cs ih =>
    obtain ⟨h1, w, h2, h3⟩ := h
    have hends' : List.IsChain (fun p q : P ℝ × P ℝ => p.2 = q.1) ((c.p1, c.p2) :: (d.p1, d.p2) :: bezEnds cs) := hends
    obtain ⟨e1, e2⟩ := List.isChain_cons_cons.1 hends'
    obtain ⟨g1, x, g2, g3⟩ := ih h2 h3 e2
    refine ⟨List.isChain_cons_cons.2 ⟨⟨e1, u, hc, h1⟩, g1⟩, x, ?_, g3⟩
    rw [← g2]; simp

theorem rounds_ends {eps k : ℝ} {l : List (Shape ℝ)} (h : List.IsChain (Rounds eps k) l) : List.IsChain (fun p q : P ℝ × P ℝ => p.2 = q.1) (shapeEnds l) := by
  unfold shapeEnds
  rw [List.isChain_map]
  exact h.imp fun s t hst => hst.1

/-- **C118**, open paths: for every connected path of two or more proper segments whose vertices can be rounded visibly and that does not end where it starts, `smooth_path` returns
one curve for each segment, with the same ends, and the curves follow each other smoothly. -/
theorem C118_open_partial (eps k : ℝ) (heps : 0 < eps) (hk : 0 < k) (s0 s1 : Shape ℝ) (rest : List (Shape ℝ)) (last : Shape ℝ) (hlast : (s0 :: s1 :: rest).getLast? = some last)
    (hp : ∀ s ∈ s0 :: s1 :: rest, Proper eps s) (hr : List.IsChain (Rounds eps k) (s0 :: s1 :: rest)) (hopen : eps ^ 2 ≤ sqDist last.p2 s0.p1) :
    ∃ l, smoothPath eps k (s0 :: s1 :: rest) = .ok (.curves l) ∧ bezEnds l = shapeEnds (s0 :: s1 :: rest) ∧ List.IsChain SmoothJoin l := by
  have hs := hp s0 (by simp)
  have ht := hp s1 (by simp)
  obtain ⟨hr01, hr'⟩ := List.isChain_cons_cons.1 hr
  obtain ⟨w, n, hn, -, hcurve⟩ := smoothingCurve_spec heps hk hs ht hr01
  obtain ⟨c, h1, h2, h3, h4, h5⟩ := hcurve s0.p1
  obtain ⟨cs, last', v, m, g1, g2, g3, g4, g5⟩ := smoothLoop_spec heps hk rest s1 [c] w n hn (fun x hx => hp x (by simp [hx])) hr'
  have hl : last' = last := by
    rw [List.getLast?_cons_cons, g4] at hlast
    injection hlast
  subst hl
  have hlastp : Proper eps last' := hp last' (List.mem_of_getLast? hlast)
  have hloop : smoothLoop eps k [] s0 s0.p1 (s1 :: rest) = .ok ([c] ++ cs, some (last', ahead last'.p1 v m)) := by
    unfold smoothLoop
    rw [(proper_ends hs).1, (proper_ends ht).1]
    simp only [Bool.or_self, Bool.false_eq_true, if_false, h1, bind, Except.bind]
    rw [h2, h3, (proper_ends hs).2, if_pos rfl]
    exact g1
  set d := Bez.fromQuadratic last'.p1 (ahead last'.p1 v m) last'.p2 with hd
  have hleave : Leaves d v := by
    refine ⟨2 / 3 * m, by linarith, ?_⟩
    rw [hd]
    apply P.ext_real <;> simp [Bez.fromQuadratic, P.add, P.mul, P.sub, ahead] <;> ring
  have hends : bezEnds ([c] ++ cs ++ [d]) = shapeEnds (s0 :: s1 :: rest) := by
    show (c.p1, c.p2) :: bezEnds (cs ++ [d]) = (s0.p1, s0.p2) :: shapeEnds (s1 :: rest)
    rw [← g5, h2, h3]
    simp [bezEnds, hd, Bez.fromQuadratic]
  refine ⟨[c] ++ cs ++ [d], ?_, hends, ?_⟩
  · unfold smoothPath
    simp only [hloop, bind, Except.bind]
    rw [(eq_false_iff eps _ _).2 hopen]
    simp only [Bool.false_eq_true, if_false, smoothingCurve, Option.getD_some, pure, Except.pure]
    rw [← hd]
    have : d.p1.ne eps d.p2 = true := (proper_ends hlastp).2
    rw [this, if_pos rfl]
  · have hch := rounds_ends hr
    rw [← hends] at hch
    have hch1 : List.IsChain (fun p q : P ℝ × P ℝ => p.2 = q.1) (bezEnds (c :: cs)) := by
      have e : bezEnds ([c] ++ cs ++ [d]) = bezEnds (c :: cs) ++ bezEnds [d] := by simp [bezEnds]
      rw [e] at hch
      exact hch.left_of_append
    obtain ⟨j1, e, he, j2⟩ := threads_chain h4 g3 hch1
    have hjoin : e.p2 = d.p1 := by
      have e1 : bezEnds ([c] ++ cs ++ [d]) = bezEnds (c :: cs) ++ [(d.p1, d.p2)] := by simp [bezEnds]
      rw [e1, List.isChain_append] at hch
      exact hch.2.2 (e.p1, e.p2) (by unfold bezEnds; rw [List.getLast?_map, he]; rfl) (d.p1, d.p2) (by simp)
    show List.IsChain SmoothJoin ((c :: cs) ++ [d])
    rw [List.isChain_append]
    refine ⟨j1, List.isChain_singleton _, fun x hx y hy => ?_⟩
    rw [he, Option.mem_some_iff] at hx
    have : d = y := by simpa using hy
    subst this
    subst hx
    exact ⟨hjoin, v, j2, hleave⟩

/-- **C118**, closed paths: for every closed path of two or more proper segments whose vertices can be rounded visibly, `smooth_path` returns one curve for each segment, with the same
ends, and the curves follow each other smoothly, the first one after the last one as well. -/
theorem C118_closed_partial (eps k : ℝ) (heps : 0 < eps) (hk : 0 < k) (s0 s1 : Shape ℝ) (rest : List (Shape ℝ)) (last : Shape ℝ) (hlast : (s0 :: s1 :: rest).getLast? = some last)
    (hp : ∀ s ∈ s0 :: s1 :: rest, Proper eps s) (hr : List.IsChain (Rounds eps k) (s0 :: s1 :: rest)) (hclose : Rounds eps k last s0) :
    ∃ c l d, smoothPath eps k (s0 :: s1 :: rest) = .ok (.curves (c :: l)) ∧ bezEnds (c :: l) = shapeEnds (s0 :: s1 :: rest) ∧ List.IsChain SmoothJoin (c :: l) ∧
      (c :: l).getLast? = some d ∧ SmoothJoin d c := by
  have hs := hp s0 (by simp)
  have ht := hp s1 (by simp)
  obtain ⟨hr01, hr'⟩ := List.isChain_cons_cons.1 hr
  obtain ⟨w, n, hn, -, hcurve⟩ := smoothingCurve_spec heps hk hs ht hr01
  obtain ⟨c, h1, h2, h3, h4, h5⟩ := hcurve s0.p1
  obtain ⟨cs, last', v, m, g1, g2, g3, g4, g5⟩ := smoothLoop_spec heps hk rest s1 [c] w n hn (fun x hx => hp x (by simp [hx])) hr'
  have hl : last' = last := by
    rw [List.getLast?_cons_cons, g4] at hlast
    injection hlast
  subst hl
  have hlastp : Proper eps last' := hp last' (List.mem_of_getLast? hlast)
  have hloop : smoothLoop eps k [] s0 s0.p1 (s1 :: rest) = .ok ([c] ++ cs, some (last', ahead last'.p1 v m)) := by
    unfold smoothLoop
    rw [(proper_ends hs).1, (proper_ends ht).1]
    simp only [Bool.or_self, Bool.false_eq_true, if_false, h1, bind, Except.bind]
    rw [h2, h3, (proper_ends hs).2, if_pos rfl]
    exact g1
  obtain ⟨z, nz, hnz, -, hclosing⟩ := smoothingCurve_spec heps hk hlastp hs hclose
  obtain ⟨d, d1, d2, d3, d4, d5⟩ := hclosing (ahead last'.p1 v m)
  have hdl : Leaves d v := d5 v m g2 rfl
  obtain ⟨c0, c1, c2, c3, c4, c5⟩ := hcurve (ahead s0.p1 z nz)
  have hcl : Leaves c0 z := c5 z nz hnz rfl
  have hends : bezEnds ([c0] ++ cs ++ [d]) = shapeEnds (s0 :: s1 :: rest) := by
    show (c0.p1, c0.p2) :: bezEnds (cs ++ [d]) = (s0.p1, s0.p2) :: shapeEnds (s1 :: rest)
    rw [← g5, c2, c3]
    simp [bezEnds, d2, d3]
  refine ⟨c0, cs ++ [d], d, ?_, hends, ?_, by rw [← List.cons_append, List.getLast?_append]; simp, by rw [d3, c2]; exact hclose.1, z, d4, hcl⟩
  · unfold smoothPath
    simp only [hloop, bind, Except.bind]
    have heq : last'.p2.eq eps s0.p1 = true := by
      rw [eq_iff, hclose.1]
      have : sqDist s0.p1 s0.p1 = 0 := by simp [sqDist]
      rw [this]; positivity
    rw [heq, if_pos rfl]
    simp only [d1, c1, List.cons_append, List.nil_append, setFirst, pure, Except.pure]
    rw [d2, d3, (proper_ends hlastp).2, if_pos rfl]
  · have hch := rounds_ends hr
    rw [← hends] at hch
    have hch1 : List.IsChain (fun p q : P ℝ × P ℝ => p.2 = q.1) (bezEnds (c0 :: cs)) := by
      have e : bezEnds ([c0] ++ cs ++ [d]) = bezEnds (c0 :: cs) ++ bezEnds [d] := by simp [bezEnds]
      rw [e] at hch
      exact hch.left_of_append
    obtain ⟨j1, e, he, j2⟩ := threads_chain c4 g3 hch1
    have hjoin : e.p2 = d.p1 := by
      have e1 : bezEnds ([c0] ++ cs ++ [d]) = bezEnds (c0 :: cs) ++ [(d.p1, d.p2)] := by simp [bezEnds]
      rw [e1, List.isChain_append] at hch
      exact hch.2.2 (e.p1, e.p2) (by unfold bezEnds; rw [List.getLast?_map, he]; rfl) (d.p1, d.p2) (by simp)
    show List.IsChain SmoothJoin ((c0 :: cs) ++ [d])
    rw [List.isChain_append]
    refine ⟨j1, List.isChain_singleton _, fun x hx y hy => ?_⟩
    rw [he, Option.mem_some_iff] at hx
    have : d = y := by simpa using hy
    subst this
    subst hx
    exact ⟨hjoin, v, j2, hdl⟩

/-- **C118**, what `SmoothJoin` means for the curves: their tangents at the vertex point the same way. -/
theorem C118_tangent {b c : Bez ℝ} (h : SmoothJoin b c) : ∃ w m n, 0 < m ∧ 0 < n ∧
    HasDerivAt (fun t => (b.curve t).x) (m * Real.cos w) 1 ∧ HasDerivAt (fun t => (b.curve t).y) (m * Real.sin w) 1 ∧
    HasDerivAt (fun t => (c.curve t).x) (n * Real.cos w) 0 ∧ HasDerivAt (fun t => (c.curve t).y) (n * Real.sin w) 0 := by
  obtain ⟨-, w, ⟨m, hm, hb⟩, n, hn, hc⟩ := h
  have hb1 : b.p2.x = b.c2.x + m * Real.cos w := congrArg P.x hb
  have hb2 : b.p2.y = b.c2.y + m * Real.sin w := congrArg P.y hb
  have hc1 : c.c1.x = c.p1.x + n * Real.cos w := congrArg P.x hc
  have hc2 : c.c1.y = c.p1.y + n * Real.sin w := congrArg P.y hc
  refine ⟨w, 3 * m, 3 * n, by positivity, by positivity, ?_, ?_, ?_, ?_⟩
  · refine HasDerivAt.congr_deriv (C116_derivatives b 1).1.1 ?_
    simp [Bez.derivative1, P.add, P.mul, P.sub, hb1]; ring
  · refine HasDerivAt.congr_deriv (C116_derivatives b 1).1.2 ?_
    simp [Bez.derivative1, P.add, P.mul, P.sub, hb2]; ring
  · refine HasDerivAt.congr_deriv (C116_derivatives c 0).1.1 ?_
    simp [Bez.derivative1, P.add, P.mul, P.sub, hc1]; ring
  · refine HasDerivAt.congr_deriv (C116_derivatives c 0).1.2 ?_
    simp [Bez.derivative1, P.add, P.mul, P.sub, hc2]; ring

/-! ## What fails -/

theorem line_curve (eps k : ℝ) (s t : Line ℝ) (h : 0 < segLen s + segLen t) (cp : P ℝ) :
    ∃ c q, smoothingCurve eps (.line s) (some (.line t)) (some cp) k = .ok (c, q) ∧ c.p1 = s.p1 ∧ c.p2 = s.p2 := by
  have hd : pdiv (segLen s) (segLen s +. segLen t) = .ok (segLen s / (segLen s + segLen t)) := by
    unfold pdiv
    rw [if_neg (by simp; linarith)]
    rfl
  unfold smoothingCurve
  simp only [Shape.lineArcLength, Shape.lineArcMidpoint, length_real, bind, Except.bind, hd, pure, Except.pure]
  refine ⟨_, _, rfl, ?_⟩
  unfold startCurve
  split <;> exact ⟨rfl, rfl⟩

theorem line_loop (eps k : ℝ) (heps : 0 < eps) (ls : List (Line ℝ)) : ∀ (l : Line ℝ) (acc : List (Bez ℝ)) (cp : P ℝ), (∀ x ∈ l :: ls, eps ^ 2 ≤ sqDist x.p1 x.p2) →
    ∃ cs last q, smoothLoop eps k acc (.line l) cp (ls.map .line) = .ok (acc ++ cs, some (.line last, q)) ∧ (l :: ls).getLast? = some last ∧
      bezEnds cs ++ [(last.p1, last.p2)] = (l :: ls).map fun x => (x.p1, x.p2) := by
  induction ls with
  | nil => intro l acc cp _; exact ⟨[], l, cp, by simp [smoothLoop], rfl, rfl⟩
  | cons t ls ih =>
    intro l acc cp h
    have hl := h l (by simp)
    have pos : 0 < segLen l := Real.sqrt_pos.2 (lt_of_lt_of_le (by positivity) hl)
    have nn : 0 ≤ segLen t := Real.sqrt_nonneg _
    obtain ⟨c, q, h1, h2, h3⟩ := line_curve eps k l t (by linarith) cp
    obtain ⟨cs, last, q', g1, g2, g3⟩ := ih t (acc ++ [c]) q (fun x hx => h x (by simp [hx]))
    refine ⟨c :: cs, last, q', ?_, by rw [List.getLast?_cons_cons, g2], ?_⟩
    · rw [List.map_cons]
      unfold smoothLoop
      simp only [Shape.isBez, Bool.or_self, Bool.false_eq_true, if_false, h1, bind, Except.bind]
      rw [h2, h3, show P.ne eps l.p1 l.p2 = true from (proper_ends (s := .line l) hl).2, if_pos rfl, g1]
      simp
    · show (c.p1, c.p2) :: (bezEnds cs ++ _) = (l.p1, l.p2) :: _
      rw [g3, h2, h3]

/-- The parts of **C118** that fail.  A Bezier curve at the second place (or at the first one) makes the whole path disappear.  In a closed path of lines that begins with a
line of no length, this line is kept and the next one is lost. -/
theorem C118_refuted (eps k : ℝ) (heps : 0 < eps) :
    (∀ (s : Shape ℝ) (b : Bez ℝ) (rest : List (Shape ℝ)), smoothPath eps k (s :: .bez b :: rest) = .ok (.curves [])) ∧
    (∀ (a : P ℝ) (t : Line ℝ) (ls : List (Line ℝ)) (last : Line ℝ), (t :: ls).getLast? = some last → last.p2 = a → (∀ x ∈ t :: ls, eps ^ 2 ≤ sqDist x.p1 x.p2) → ls ≠ [] →
      ∃ l, smoothPath eps k (.line ⟨a, a⟩ :: .line t :: ls.map .line) = .ok (.curves l) ∧ bezEnds l = (a, a) :: ls.map fun x => (x.p1, x.p2)) := by
  constructor
  · intro s b rest
    unfold smoothPath smoothLoop
    simp [Shape.isBez, bind, Except.bind, pure, Except.pure]
  · intro a t ls last hlast hclose hp hne
    have ha : P.ne eps a a = false := by
      show (!a.eq eps a) = false
      have : a.eq eps a = true := by rw [eq_iff]; simp only [sqDist]; ring_nf; positivity
      rw [this]; rfl
    have hpos : ∀ x ∈ t :: ls, 0 < segLen x := fun x hx => Real.sqrt_pos.2 (lt_of_lt_of_le (by positivity) (hp x hx))
    have hnn : 0 ≤ segLen ⟨a, a⟩ := Real.sqrt_nonneg _
    have hlm : last ∈ t :: ls := List.mem_of_getLast? hlast
    obtain ⟨c, q, h1, h2, h3⟩ := line_curve eps k ⟨a, a⟩ t (by linarith [hpos t (by simp)]) a
    obtain ⟨cs, last', q', g1, g2, g3⟩ := line_loop eps k heps ls t [] q hp
    rw [g2] at hlast
    injection hlast with hlast
    subst hlast
    obtain ⟨d, z, d1, d2, d3⟩ := line_curve eps k last' ⟨a, a⟩ (by linarith [hpos _ hlm]) q'
    obtain ⟨c0, z0, e1, e2, e3⟩ := line_curve eps k ⟨a, a⟩ t (by linarith [hpos t (by simp)]) z
    have hcs : cs ≠ [] := by
      rintro rfl
      simp only [bezEnds, List.map_nil, List.nil_append, List.map_cons, List.cons.injEq, List.nil_eq, List.map_eq_nil_iff] at g3
      exact hne g3.2
    obtain ⟨c1, cs', rfl⟩ := List.exists_cons_of_ne_nil hcs
    refine ⟨c0 :: cs' ++ [d], ?_, ?_⟩
    · unfold smoothPath smoothLoop
      simp only [Shape.isBez, Bool.or_self, Bool.false_eq_true, if_false, Shape.p1, h1, bind, Except.bind]
      rw [h2, h3, ha]
      simp only [Bool.false_eq_true, if_false, g1, List.nil_append, Shape.p1, Shape.p2]
      have : last'.p2.eq eps a = true := by rw [hclose, eq_iff]; simp only [sqDist]; ring_nf; positivity
      rw [this, if_pos rfl]
      simp only [d1, e1, setFirst, pure, Except.pure]
      rw [d2, d3, show P.ne eps last'.p1 last'.p2 = true from (proper_ends (s := .line last') (hp _ hlm)).2, if_pos rfl]
    · have g3' : (c1.p1, c1.p2) :: (bezEnds cs' ++ [(last'.p1, last'.p2)]) = (t.p1, t.p2) :: ls.map fun x => (x.p1, x.p2) := g3
      injection g3' with _ g3'
      rw [← g3']
      simp [bezEnds, e2, e3, d2, d3]

/-- Non-vacuity: the square of side 2, closed, is smoothed; so are three of its sides. -/
example : ∃ c l d, smoothPath (1 / 1000) (1 / 2) [.line ⟨⟨0, 0⟩, ⟨2, 0⟩⟩, .line ⟨⟨2, 0⟩, ⟨2, 2⟩⟩, .line ⟨⟨2, 2⟩, ⟨0, 2⟩⟩, .line ⟨⟨0, 2⟩, ⟨0, (0 : ℝ)⟩⟩] = .ok (.curves (c :: l)) ∧
    (c :: l).getLast? = some d ∧ SmoothJoin d c := by
  have h2 : √(4 : ℝ) = 2 := by rw [show (4 : ℝ) = 2 ^ 2 by norm_num]; exact Real.sqrt_sq (by norm_num)
  have h1 : (1 : ℝ) ≤ √2 := by rw [Real.le_sqrt (by norm_num) (by norm_num)]; norm_num
  obtain ⟨c, l, d, e1, -, -, e2, e3⟩ := C118_closed_partial (1 / 1000) (1 / 2) (by norm_num) (by norm_num) (.line ⟨⟨0, 0⟩, ⟨2, 0⟩⟩) (.line ⟨⟨2, 0⟩, ⟨2, 2⟩⟩)
    [.line ⟨⟨2, 2⟩, ⟨0, 2⟩⟩, .line ⟨⟨0, 2⟩, ⟨0, (0 : ℝ)⟩⟩] (.line ⟨⟨0, 2⟩, ⟨0, 0⟩⟩) rfl
    (by
      intro s hs
      simp only [List.mem_cons, List.not_mem_nil, or_false] at hs
      rcases hs with rfl | rfl | rfl | rfl <;> norm_num [Proper, sqDist])
    (by
      simp only [List.isChain_cons_cons, List.isChain_singleton, and_true]
      refine ⟨?_, ?_, ?_⟩ <;> norm_num [Rounds, Shape.p1, Shape.p2, middleOf, reach, lengthOf, segPt, sqDist, h2] <;> linarith)
    (by norm_num [Rounds, Shape.p1, Shape.p2, middleOf, reach, lengthOf, segPt, sqDist, h2]; linarith)
  exact ⟨c, l, d, e1, e2, e3⟩

end Verif.Geom
