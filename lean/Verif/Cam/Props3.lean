import Verif.Cam.Props2

/-!
# C34: the tangential axis
-/

set_option linter.unusedSectionVars false

namespace Verif.Cam
open Verif PyFloat PyTrig Geom GCode

section
variable {K : Type} [Field K] [LinearOrder K] [IsStrictOrderedRing K] [PyTrig K] [ExactFloat K]

/-- Specification: `a` points in direction `b` up to whole turns and an error below `eps`. -/
def NearDirection (eps a b : K) : Prop := ∃ n : Int, |a - b - n * (2 * PyFloat.pi)| < eps

theorem rotation_near (eps a b : K) (heps : 0 < eps) : NearDirection eps (a + calcRotation eps a b) b := by
  rcases C32_rotation_target eps a b with ⟨h1, h2⟩ | ⟨-, n, hn⟩
  · exact ⟨0, by rw [h2]; simpa using h1⟩
  · exact ⟨n, by rw [hn]; simpa using heps⟩

theorem rotation_zero_near (eps a b : K) (h : isZero eps (calcRotation eps a b) = true) : NearDirection eps a b := by
  rcases C32_rotation_target eps a b with ⟨h1, h2⟩ | ⟨-, n, hn⟩
  · exact ⟨0, by simpa using h1⟩
  · refine ⟨n, ?_⟩
    unfold isZero at h
    py at h
    rw [abs_lt]
    constructor <;> linarith [h.1, h.2]

theorem rotation_abs (eps a b : K) : |a + calcRotation eps a b - a| ≤ PyFloat.pi := by
  obtain ⟨h1, h2⟩ := C32_rotation_range eps a b
  rw [add_sub_cancel_left, abs_le]
  exact ⟨h1, h2⟩

/-- Angles of `turnTo`. -/
theorem turnTo_angles (e : Env K) (o : Opts K) (s : Cam K) (seg : Seg K) (heps : 0 < e.eps)
    (htan : o.enableTangent = true) (hig : seg.hints.ignoreA = false) :
    NearDirection e.eps (s.turnTo e o seg).1.angle (seg.startAngle e.eps) ∧
    |(s.turnTo e o seg).1.angle - s.angle| ≤ PyFloat.pi ∧
    NearDirection e.eps (s.turnTo e o seg).2 (seg.endAngle e.eps) ∧
    |(s.turnTo e o seg).2 - (s.turnTo e o seg).1.angle| ≤ PyFloat.pi := by
  have hp := ExactFloat.pi_pos (K := K)
  unfold Cam.turnTo
  rw [if_neg (by simp [htan, hig])]
  dsimp only
  split
  · rename_i hz
    refine ⟨rotation_zero_near _ _ _ hz, by simpa using hp.le, ?_, ?_⟩
    · py; exact rotation_near _ _ _ heps
    · py; exact rotation_abs _ _ _
  · rw [emit_angle]
    py
    exact ⟨rotation_near _ _ _ heps, rotation_abs _ _ _, rotation_near _ _ _ heps, rotation_abs _ _ _⟩

/-- **C34**: in tangent mode, for every segment of every path (whatever segments come before it and after it): the segment is
cut by at most one turn of the A axis alone followed by one feed to its end point; before the feed the A axis is within
`EPSILON` of the segment's start direction, after it within `EPSILON` of its end direction, and neither turn exceeds `π`.
The error bound does not depend on the number of segments already cut. -/
theorem C34_tangential (e : Env K) (o : Opts K) (d : K) (pre post : Path K) (seg : Seg K) (s : Cam K)
    (heps : 0 < e.eps) (htan : o.enableTangent = true) (hig : seg.hints.ignoreA = false)
    (hp : ∀ x ∈ pre ++ seg :: post, (∃ l, x.shape = .line l) ∨ ∃ a, x.shape = .arc a)
    (herr : ((pre ++ seg :: post).foldl (Cam.genSegment e o d) s).err = none) :
    ∃ (before after turn : List (Call K)) (c : Call K) (a0 a1 a2 : K),
      ((pre ++ seg :: post).foldl (Cam.genSegment e o d) s).trace = s.trace ++ before ++ (turn ++ [c]) ++ after ∧
      a0 = (pre.foldl (Cam.genSegment e o d) s).angle ∧
      ((turn = [] ∧ a1 = a0) ∨ turn = [.feed none none none (some a1) none none]) ∧
      CutCall seg (seg.hints.z.getD d) a2 c ∧
      NearDirection e.eps a1 (seg.startAngle e.eps) ∧ |a1 - a0| ≤ PyFloat.pi ∧
      NearDirection e.eps a2 (seg.endAngle e.eps) ∧ |a2 - a1| ≤ PyFloat.pi ∧
      a2 = ((pre ++ [seg]).foldl (Cam.genSegment e o d) s).angle := by
  rw [List.foldl_append, List.foldl_cons] at herr ⊢
  have h1 := foldl_genSegment_err herr
  obtain ⟨h0, turn, c, a1, ht, hc, hext, -, ha1, ha2⟩ :=
    genSegment_spec e o d _ seg (hp seg (by simp)) h1
  obtain ⟨bs, hb, -⟩ := foldl_genSegment_spec e o d pre (fun x hx => hp x (by simp [hx])) s h0
  obtain ⟨as, ha, -⟩ := foldl_genSegment_spec e o d post (fun x hx => hp x (by simp [hx])) _ herr
  have hang := turnTo_angles e o (pre.foldl (Cam.genSegment e o d) s) seg heps htan hig
  refine ⟨bs, as, turn, c, _, a1, _, ?_, rfl, ?_, hc, ?_, ?_, ?_, ?_, ?_⟩
  · rw [ha.1, hext.1, hb.1]
  · rcases ht with ⟨h, h'⟩ | h
    · exact Or.inl ⟨h, h'⟩
    · exact Or.inr h
  · rw [ha1]; exact hang.1
  · rw [ha1]; exact hang.2.1
  · rw [ha2]; exact hang.2.2.1
  · rw [ha2, ha1]; exact hang.2.2.2
  · rw [List.foldl_append]; rfl

/-- **C34** for the rapid move to a path's start: it turns the A axis by at most `π` to within `EPSILON` of the start
direction of the path. -/
theorem C34_rapid (e : Env K) (o : Opts K) (s : Cam K) (first : Seg K) (heps : 0 < e.eps)
    (htan : o.enableTangent = true) (herr : s.err = none) :
    ∃ a, (s.rapidTo e o first).trace
        = s.trace ++ [.rapidMove (some first.p1.x) (some first.p1.y) none (some a) none] ∧
      (s.rapidTo e o first).angle = a ∧
      NearDirection e.eps a (first.startAngle e.eps) ∧ |a - s.angle| ≤ PyFloat.pi := by
  obtain ⟨hext, -, -⟩ := rapidTo_spec (e := e) (o := o) (f := first) herr
  refine ⟨_, hext.1, rfl, ?_⟩
  unfold Cam.rapidTo
  rw [if_neg (by simp [herr])]
  dsimp only
  rw [emit_angle, if_pos htan]
  py
  exact ⟨rotation_near _ _ _ heps, rotation_abs _ _ _⟩

/-- Without tangent mode no A axis turn is made and the commanded A value never changes. -/
theorem C34_off (e : Env K) (o : Opts K) (d : K) (p : Path K) (s : Cam K) (htan : o.enableTangent = false)
    (hp : ∀ x ∈ p, (∃ l, x.shape = .line l) ∨ ∃ a, x.shape = .arc a)
    (herr : (p.foldl (Cam.genSegment e o d) s).err = none) : (p.foldl (Cam.genSegment e o d) s).angle = s.angle := by
  induction p generalizing s with
  | nil => rfl
  | cons seg p ih =>
    have h1 := foldl_genSegment_err (p := p) herr
    obtain ⟨-, -, -, -, -, -, -, -, -, ha2⟩ := genSegment_spec e o d _ seg (hp seg (by simp)) h1
    rw [List.foldl_cons, ih _ (fun x hx => hp x (by simp [hx])) herr, ha2]
    unfold Cam.turnTo
    rw [if_pos (by simp [htan])]

end

/-- The A axis value a call commands. -/
def aWord : Call ℚ → Option ℚ
  | .rapidMove _ _ _ a _ => a
  | .feed _ _ _ a _ _ => a
  | .feedArc _ _ _ _ _ a _ _ _ => a
  | _ => none

/-- Non-vacuity: cutting the demo path (a line along +X, then a clockwise half circle whose start tangent is +Y) completes,
makes a real quarter turn between its segments, and the A axis turns half a turn along the circle. -/
example : (pathsQ.head!.foldl (Cam.genSegment envQ optQ (-1/2)) ((Cam.init demo).emit
      (.rapidMove (some 0) (some 0) none (some 0) none))).err = none ∧
    ((pathsQ.head!.foldl (Cam.genSegment envQ optQ (-1/2)) ((Cam.init demo).emit
      (.rapidMove (some 0) (some 0) none (some 0) none))).trace.map aWord) =
    [some 0, some 0, some (piRat / 2), some (-piRat / 2)] := by decide +kernel

end Verif.Cam
