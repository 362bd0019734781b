import Verif.Svg.Geometry
import Verif.Svg.Props2
import Verif.Geom.Props8

/-!
# C87: path data becomes connected geometry
-/

set_option linter.unusedSectionVars false

namespace Verif.Svg
open Verif PyFloat PyTrig Geom Css

/-! ## Specification -/

/-- Specification: what a drawing command draws from the pen position: one segment from there to the end point of the command, which is the same curve. -/
inductive Draws (eps : ℝ) (pen : P ℝ) : Char × List ℝ → Shape ℝ → Prop
  | line (x y) : Draws eps pen ('L', [x, y]) (.line ⟨pen, ⟨x, y⟩⟩)
  | cubic (a b c d x y) : Draws eps pen ('C', [a, b, c, d, x, y]) (.bez ⟨pen, ⟨a, b⟩, ⟨c, d⟩, ⟨x, y⟩⟩)
  | quadratic (a b x y) (bz : Bez ℝ) : bz.p1 = pen → bz.p2 = ⟨x, y⟩ → (∀ t, bz.curve t = bernstein2 pen ⟨a, b⟩ ⟨x, y⟩ t) →
      Draws eps pen ('Q', [a, b, x, y]) (.bez bz)
  | flatArc (rx ry phi large sweep x y) : |rx| < eps ∨ |ry| < eps → Draws eps pen ('A', [rx, ry, phi, large, sweep, x, y]) (.line ⟨pen, ⟨x, y⟩⟩)
  | circle (rx ry phi large sweep x y) (a : Arc ℝ) : a.p1 = pen → a.p2 = ⟨x, y⟩ →
      (large = 0 → sweep = 0 ∨ sweep = 1 → rx = ry → 0 < rx → (eps * rx) ^ 2 ≤ sqDist pen ⟨x, y⟩ → sqDist pen ⟨x, y⟩ < (2 * rx) ^ 2 →
        a.radius = rx ∧ sqDist pen a.center = rx ^ 2 ∧ rotAbout a.center a.angle pen = ⟨x, y⟩ ∧ |a.angle| < Real.pi ∧ (0 < a.angle ↔ sweep = 1)) →
      Draws eps pen ('A', [rx, ry, phi, large, sweep, x, y]) (.arc a)

/-- Specification: the segments drawn by consecutive drawing commands. -/
inductive DrawsAll (eps : ℝ) : P ℝ → List (Char × List ℝ) → List (Shape ℝ) → Prop
  | nil (pen) : DrawsAll eps pen [] []
  | cons {pen c s cs ss} : Draws eps pen c s → DrawsAll eps (endPoint c.2) cs ss → DrawsAll eps pen (c :: cs) (s :: ss)

/-- Specification: the subpaths of a path that draw something. -/
inductive SubPaths (eps : ℝ) : List (Char × List ℝ) → List (List (Shape ℝ)) → Prop
  | nil : SubPaths eps [] []
  | skip {x y rest subs} : SubPaths eps rest subs → SubPaths eps (('M', [x, y]) :: rest) subs
  | draw {x y ds ss rest subs} : ds ≠ [] → DrawsAll eps ⟨x, y⟩ ds ss → SubPaths eps rest subs →
      SubPaths eps (('M', [x, y]) :: (ds ++ rest)) (ss :: subs)

/-- Specification: consecutive segments are connected. -/
def Connected (l : List (Shape ℝ)) : Prop := l.IsChain fun s t => s.p2 = t.p1

/-- Specification: every arc command (with the pen where the command before it ends) has a radius of (about) zero, or equal radii (up to the tolerance) and an end point that
is not the pen position. -/
def ArcsRound (eps : ℝ) : P ℝ → List (Char × List ℝ) → Prop
  | _, [] => True
  | pen, c :: cs => (∀ rx ry phi large sweep x y, c = ('A', [rx, ry, phi, large, sweep, x, y]) →
      |rx| < eps ∨ |ry| < eps ∨ (|rx - ry| < eps ∧ pen ≠ ⟨x, y⟩)) ∧ ArcsRound eps (endPoint c.2) cs

/-! ## Lemmas -/

theorem arcShapes_round (eps : ℝ) (heps : 0 < eps) (rounds : Nat) (tb : Bool) (pen : P ℝ) (rx ry phi large sweep x y : ℝ)
    (h : |rx| < eps ∨ |ry| < eps ∨ (|rx - ry| < eps ∧ pen ≠ ⟨x, y⟩)) :
    ∃ s, arcShapes eps rounds tb pen ⟨x, y⟩ rx ry phi large sweep = .ok [s] ∧ Draws eps pen ('A', [rx, ry, phi, large, sweep, x, y]) s := by
  by_cases hz : |rx| < eps ∨ |ry| < eps
  · refine ⟨.line ⟨pen, ⟨x, y⟩⟩, ?_, .flatArc _ _ _ _ _ _ _ hz⟩
    have : EArc.fromEndpoints eps pen ⟨x, y⟩ rx ry (PyTrig.beq large sweep) true phi = .ok none := by
      unfold EArc.fromEndpoints
      have : (isZero eps rx || isZero eps ry) = true := by
        rw [Bool.or_eq_true, isZero_iff, isZero_iff]; exact hz
      rw [if_pos this]
    unfold arcShapes
    rw [this]
    rfl
  · have hr : |rx - ry| < eps ∧ pen ≠ ⟨x, y⟩ := by
      rcases h with h | h | h
      · exact absurd (Or.inl h) hz
      · exact absurd (Or.inr h) hz
      · exact h
    push Not at hz
    obtain ⟨e, he, -⟩ := C88_ends_partial eps heps pen ⟨x, y⟩ rx ry phi (PyTrig.beq large sweep) true hz.1 hz.2 hr.2
    have hf : floatEq eps rx ry = true := by rw [floatEq_iff]; exact hr.1
    refine ⟨.arc ⟨pen, ⟨x, y⟩, rx, e.sweep, e.ell.center⟩, ?_, .circle _ _ _ _ _ _ _ _ rfl rfl ?_⟩
    · unfold arcShapes
      rw [he]
      simp only [bind, Except.bind, hf, if_true, Arc.mk']
      rfl
    · intro hl hs hxy hpos h1 h2
      subst hl hxy
      obtain ⟨e', he', -, -, -, -, g1, g2, g3, g4, g5, -⟩ := circular_arc eps heps pen ⟨x, y⟩ rx phi (PyTrig.beq 0 sweep) true hpos
        (by rw [abs_of_pos hpos] at hz; exact hz.1) h1 h2
      have : e' = e := by rw [he] at he'; simpa using he'.symm
      subst this
      refine ⟨rfl, g1, g3, g4, ?_⟩
      rw [g5]
      rcases hs with rfl | rfl <;> simp [real_beq]

theorem cmdShapes_draw (eps : ℝ) (heps : 0 < eps) (rounds : Nat) (tb : Bool) (pen : P ℝ) (c : Char × List ℝ) (hc : Canonical c) (hM : c.1 ≠ 'M')
    (ha : ∀ rx ry phi large sweep x y, c = ('A', [rx, ry, phi, large, sweep, x, y]) → |rx| < eps ∨ |ry| < eps ∨ (|rx - ry| < eps ∧ pen ≠ ⟨x, y⟩)) :
    ∃ s, cmdShapes eps rounds tb pen c.1 c.2 = .ok (some [s]) ∧ Draws eps pen c s := by
  obtain ⟨c, l⟩ := c
  unfold Canonical canonArity at hc
  simp only at hc hM ha ⊢
  split at hc <;> simp only [Option.some.injEq, reduceCtorEq] at hc
  · exact absurd rfl hM
  · match l, hc with | [x, y], _ => exact ⟨_, rfl, .line x y⟩
  · match l, hc with | [x1, x2, x3, x4, x5, x6], _ => exact ⟨_, rfl, .cubic ..⟩
  · match l, hc with | [a, b, x, y], _ => exact ⟨_, rfl, .quadratic a b x y _ rfl rfl fun t => C64_from_quadratic _ _ _ t⟩
  · match l, hc with
    | [rx, ry, phi, large, sweep, x, y], _ =>
      obtain ⟨s, h1, h2⟩ := arcShapes_round eps heps rounds tb pen rx ry phi large sweep x y (ha _ _ _ _ _ _ _ rfl)
      refine ⟨s, ?_, h2⟩
      show (arcShapes eps rounds tb pen ⟨x, y⟩ rx ry phi large sweep >>= fun l => pure (some l)) = _
      rw [h1]; rfl

theorem canonical_move {l : List ℝ} (h : Canonical ('M', l)) : ∃ x y, l = [x, y] := by
  unfold Canonical canonArity at h
  simp only [Option.some.injEq] at h
  match l, h with | [x, y], _ => exact ⟨x, y, rfl⟩

theorem DrawsAll.ends {eps : ℝ} {pen : P ℝ} {ds ss} (h : DrawsAll eps pen ds ss) :
    Connected ss ∧ (∀ s ∈ ss.head?, s.p1 = pen) ∧ (∀ s ∈ ss.getLast?, ∀ d ∈ ds.getLast?, s.p2 = endPoint d.2) ∧ ss.length = ds.length := by
  induction h with
  | nil => simp [Connected]
  | @cons pen c s cs ss hd hr ih =>
    obtain ⟨i1, i2, i3, i4⟩ := ih
    have h1 : s.p1 = pen := by cases hd <;> first | rfl | assumption
    have h2 : s.p2 = endPoint c.2 := by cases hd <;> first | rfl | assumption
    refine ⟨?_, ?_, ?_, by simp [i4]⟩
    · unfold Connected at i1 ⊢
      cases ss with
      | nil => simp
      | cons t r => rw [List.isChain_cons_cons]; exact ⟨by rw [h2, i2 t rfl], i1⟩
    · intro t ht; simp at ht; subst ht; exact h1
    · cases hr with
      | nil => intro t ht d hd; simp at ht hd; subst ht hd; exact h2
      | cons hd' hr' =>
        intro t ht d hd
        rw [List.getLast?_cons_cons] at ht hd
        exact i3 t ht d hd

theorem geomLoop_err (eps : ℝ) (heps : 0 < eps) (rounds : Nat) (tb : Bool) (e : PyErr) (cs : List (Char × List ℝ)) :
    ∀ pen sub, (∀ c ∈ cs, Canonical c) → ArcsRound eps pen cs → geomLoop eps rounds tb pen sub cs (some e) = .error e := by
  induction cs with
  | nil => intro pen sub _ _; rfl
  | cons c cs ih =>
    intro pen sub hc ha
    obtain ⟨c, l⟩ := c
    have hcan : Canonical (c, l) := hc _ (by simp)
    have hl2 : (last2 l).getD pen = endPoint l := by rw [last2_endPoint hcan]; rfl
    have hr : ∀ x ∈ cs, Canonical x := fun x hx => hc x (by simp [hx])
    by_cases hM : c = 'M'
    · subst hM
      obtain ⟨x, y, rfl⟩ := canonical_move hcan
      simp only [geomLoop, cmdShapes, last2, List.reverse_cons, List.reverse_nil, List.nil_append, List.cons_append, if_true, bind, Except.bind, Option.getD]
      rw [ih ⟨x, y⟩ [] hr ha.2]
    · obtain ⟨s, h1, -⟩ := cmdShapes_draw eps heps rounds tb pen (c, l) hcan hM ha.1
      simp only [geomLoop, bind, Except.bind]
      simp only at h1
      rw [h1]
      simp only [hl2]
      exact ih _ _ hr ha.2

theorem geomLoop_ok (eps : ℝ) (heps : 0 < eps) (rounds : Nat) (tb : Bool) (cs : List (Char × List ℝ)) :
    ∀ pen sub, (∀ c ∈ cs, Canonical c) → ArcsRound eps pen cs → ∃ ds ss rest subs, cs = ds ++ rest ∧ DrawsAll eps pen ds ss ∧ SubPaths eps rest subs ∧
      geomLoop eps rounds tb pen sub cs none = .ok (if (sub ++ ss).isEmpty then subs else (sub ++ ss) :: subs) := by
  induction cs with
  | nil => intro pen sub _ _; exact ⟨[], [], [], [], rfl, .nil _, .nil, by simp [geomLoop]⟩
  | cons c cs ih =>
    intro pen sub hc ha
    obtain ⟨c, l⟩ := c
    have hcan : Canonical (c, l) := hc _ (by simp)
    have hl2 : (last2 l).getD pen = endPoint l := by rw [last2_endPoint hcan]; rfl
    have hr : ∀ x ∈ cs, Canonical x := fun x hx => hc x (by simp [hx])
    by_cases hM : c = 'M'
    · subst hM
      obtain ⟨x, y, rfl⟩ := canonical_move hcan
      obtain ⟨ds, ss, rest, subs, g1, g2, g3, g4⟩ := ih ⟨x, y⟩ [] hr ha.2
      have hsub : ∃ subs', SubPaths eps (('M', [x, y]) :: cs) subs' ∧ geomLoop eps rounds tb ⟨x, y⟩ [] cs none = .ok subs' := by
        rw [g4]
        cases g2 with
        | nil =>
          rw [g1, List.nil_append]
          exact ⟨_, .skip g3, rfl⟩
        | cons hd hr' =>
          rw [g1]
          exact ⟨_, .draw (by simp) (.cons hd hr') g3, rfl⟩
      obtain ⟨subs', k1, k2⟩ := hsub
      refine ⟨[], [], _, subs', rfl, .nil _, k1, ?_⟩
      simp only [geomLoop, cmdShapes, last2, List.reverse_cons, List.reverse_nil, List.nil_append, List.cons_append, if_true, bind, Except.bind, Option.getD, k2,
        List.append_nil]
      rfl
    · obtain ⟨s, h1, h2⟩ := cmdShapes_draw eps heps rounds tb pen (c, l) hcan hM ha.1
      obtain ⟨ds, ss, rest, subs, g1, g2, g3, g4⟩ := ih (endPoint l) (sub ++ [s]) hr ha.2
      refine ⟨(c, l) :: ds, s :: ss, rest, subs, by rw [g1]; rfl, .cons h2 g2, g3, ?_⟩
      simp only [geomLoop, bind, Except.bind]
      simp only at h1
      rw [h1]
      simp only [hl2]
      rw [g4]
      simp

theorem SubPaths.connected {eps : ℝ} {cs subs} (h : SubPaths eps cs subs) : ∀ l ∈ subs, l ≠ [] ∧ Connected l := by
  induction h with
  | nil => simp
  | skip _ ih => exact ih
  | draw hne hd _ ih =>
    intro l hl
    rcases List.mem_cons.1 hl with rfl | hl
    · have := hd.ends
      refine ⟨?_, this.1⟩
      intro h0
      rw [h0] at this
      exact hne (List.length_eq_zero_iff.1 this.2.2.2.symm)
    · exact ih l hl

/-! ## Property -/

/-- **C87**, for every path text in which each arc has equal radii (or one that is zero) and does not end where it starts: `parse_path_geom` raises only if `parse_path` does; it
returns one list per subpath that draws something, with one segment per drawing command, each starting at the pen and ending at the end point of the command;
so the segments of each list are connected.  (Arcs that are not circular are excluded, see `C87_refuted`; for arcs with the large arc flag only the end points are as they should.) -/
theorem C87_geometry_partial (env : NumEnv ℝ) (eps : ℝ) (heps : 0 < eps) (rounds : Nat) (tb : Bool) (s : Str) (ha : ArcsRound eps ⟨0, 0⟩ (parsePath env s).1) :
    (∀ e, parsePathGeom env eps rounds tb s = .error e ↔ (parsePath env s).2 = some e) ∧
    (∀ subs, parsePathGeom env eps rounds tb s = .ok subs →
      SubPaths eps (parsePath env s).1 subs ∧ ∀ l ∈ subs, l ≠ [] ∧ Connected l) := by
  obtain ⟨hcan, hM, -⟩ := C68_parse_partial env s
  unfold parsePathGeom
  simp only [real_zero]
  cases he : (parsePath env s).2 with
  | some e =>
    rw [geomLoop_err eps heps rounds tb e _ _ _ hcan ha]
    refine ⟨fun e' => ?_, fun subs h => (by cases h)⟩
    constructor
    · intro h; cases h; rfl
    · intro h; cases h; rfl
  | none =>
    obtain ⟨ds, ss, rest, subs, g1, g2, g3, g4⟩ := geomLoop_ok eps heps rounds tb _ ⟨0, 0⟩ [] hcan ha
    rw [g4]
    refine ⟨fun e' => ⟨fun h => (by cases h), fun h => (by cases h)⟩, fun subs' h => ?_⟩
    -- the text starts with a moveto, so nothing is drawn before it
    have hds : ds = [] ∧ ss = [] := by
      cases g2 with
      | nil => exact ⟨rfl, rfl⟩
      | @cons pen c s' cs ss' hd hr =>
        exfalso
        rw [g1] at hM
        have := hM c (by simp)
        cases hd <;> simp at this
    obtain ⟨rfl, rfl⟩ := hds
    have : subs' = subs := by simpa using h.symm
    subst this
    rw [List.nil_append] at g1
    rw [g1]
    exact ⟨g3, g3.connected⟩

/-- Non-vacuity: two subpaths with lines, a quadratic curve and a circular arc. -/
example : ∃ env : NumEnv ℝ, ArcsRound (1/1000000) ⟨0, 0⟩ (parsePath env "M1 2L3 4A2 2 0 0 1 5 6M7 7Q8 8 9 8".toList).1 := by
  refine ⟨⟨fun _ n _ => (n : ℝ)⟩, ?_⟩
  have : (parsePath (⟨fun _ n _ => (n : ℝ)⟩ : NumEnv ℝ) "M1 2L3 4A2 2 0 0 1 5 6M7 7Q8 8 9 8".toList).1 =
    [('M', [((1 : Nat) : ℝ), ((2 : Nat) : ℝ)]), ('L', [((3 : Nat) : ℝ), ((4 : Nat) : ℝ)]),
      ('A', [((2 : Nat) : ℝ), ((2 : Nat) : ℝ), ((0 : Nat) : ℝ), ofInt 0, ofInt 1, ((5 : Nat) : ℝ), ((6 : Nat) : ℝ)]),
      ('M', [((7 : Nat) : ℝ), ((7 : Nat) : ℝ)]), ('Q', [((8 : Nat) : ℝ), ((8 : Nat) : ℝ), ((9 : Nat) : ℝ), ((8 : Nat) : ℝ)])] := rfl
  rw [this]
  simp only [ArcsRound, endPoint]
  refine ⟨by simp, by simp, ?_, by simp, by simp, trivial⟩
  intro rx ry phi large sweep x y h
  simp only [Prod.mk.injEq, List.cons.injEq, true_and] at h
  obtain ⟨rfl, rfl, rfl, -, -, rfl, rfl, -⟩ := h
  right; right
  refine ⟨by norm_num, ?_⟩
  intro h
  have := congrArg P.x h
  norm_num at this

/-- The elliptical arc from (0, 0) to (-2, -1) with radii 2 and 1 and equal flags has a negative sweep. -/
theorem lost_arc (eps : ℝ) (heps : 0 < eps) (h1 : eps ≤ 1 / 2) :
    ∃ e, EArc.fromEndpoints eps ⟨0, 0⟩ ⟨-2, -1⟩ 2 1 true true 0 = .ok (some e) ∧ e.sweep < 0 := by
  have hx : isZero eps (2 : ℝ) = false := isZero_false_of (by norm_num; linarith)
  have hy : isZero eps (1 : ℝ) = false := isZero_false_of (by norm_num; linarith)
  have hv : EArc.prime (⟨0, 0⟩ : P ℝ) ⟨-2, -1⟩ 0 = ⟨1, 1 / 2⟩ := by
    rw [prime_real]; apply P.ext_real <;> norm_num
  have hr : EArc.radii (⟨1, 1 / 2⟩ : P ℝ) 2 1 = .ok (2, 1) := by
    unfold EArc.radii
    simp only [real_abs, pdiv, real_beq, real_mul, real_zero, real_add, real_div, real_one, real_lt, bind, Except.bind, pure, Except.pure]
    norm_num
  have hc : EArc.centerPrime (⟨1, 1 / 2⟩ : P ℝ) 2 1 true true = .ok ⟨-1, 1 / 2⟩ := by
    unfold EArc.centerPrime
    simp only [pdiv, real_beq, real_mul, real_zero, real_add, real_sub, real_div, real_one, real_lt, psqrt, real_sqrt, real_neg, bind, Except.bind, pure, Except.pure]
    norm_num
  refine ⟨EArc.build eps ⟨0, 0⟩ ⟨-2, -1⟩ ⟨1, 1 / 2⟩ ⟨-1, 1 / 2⟩ 2 1 true true 0, ?_, ?_⟩
  · unfold EArc.fromEndpoints
    rw [hx, hy]
    simp only [hv, bind, Except.bind, hr, hc]
    rfl
  · have : (EArc.build eps ⟨0, 0⟩ ⟨-2, -1⟩ ⟨1, 1 / 2⟩ ⟨-1, 1 / 2⟩ 2 1 true true 0).sweep =
        P.angle2 eps P.origin (⟨1, 0⟩ : P ℝ) ⟨0, -1 / 2⟩ := by
      show P.angle2 _ _ _ _ = _
      congr 1
      · apply P.ext_real <;> norm_num [real_sub, real_div]
      · apply P.ext_real <;> norm_num [real_sub, real_div, real_neg]
    rw [this, angle2_real]
    · simp only [P.origin, real_zero, real_atan2]
      have h := (Complex.arg_neg_iff (z := ⟨(1 - 0) * (0 - 0) + (0 - 0) * (-1 / 2 - 0), (1 - 0) * (-1 / 2 - 0) - (0 - 0) * (0 - 0)⟩)).2 (by norm_num)
      exact h
    · simp only [sqDist]; nlinarith

/-- **C87** as stated is false of the code.  An elliptical arc whose flags are equal can vanish: this path (the arc is in a subpath whose first point is (0, 0)) becomes just the line from the
end of the arc, and nothing starts at (0, 0).  And an arc to the pen position, which SVG says to ignore, raises `ZeroDivisionError`. -/
theorem C87_refuted (eps : ℝ) (heps : 0 < eps) (h1 : eps ≤ 1 / 2) (rounds : Nat) :
    ∃ env : NumEnv ℝ,
      parsePath env "M0 0A2 1 0 0 0-2-1L5 5".toList = ([('M', [0, 0]), ('A', [2, 1, 0, 0, 0, -2, -1]), ('L', [5, 5])], none) ∧
      parsePathGeom env eps (rounds + 1) true "M0 0A2 1 0 0 0-2-1L5 5".toList = .ok [[.line ⟨⟨-2, -1⟩, ⟨5, 5⟩⟩]] ∧
      parsePath env "M0 0A2 1 0 0 1 0 0".toList = ([('M', [0, 0]), ('A', [2, 1, 0, 0, 1, 0, 0])], none) ∧
      parsePathGeom env eps (rounds + 1) true "M0 0A2 1 0 0 1 0 0".toList = .error .zeroDivision := by
  refine ⟨⟨fun neg n _ => if neg then -(n : ℝ) else (n : ℝ)⟩, ?_⟩
  have p1 : parsePath (⟨fun neg n _ => if neg then -(n : ℝ) else (n : ℝ)⟩ : NumEnv ℝ) "M0 0A2 1 0 0 0-2-1L5 5".toList =
      ([('M', [0, 0]), ('A', [2, 1, 0, 0, 0, -2, -1]), ('L', [5, 5])], none) := by
    have : parsePath (⟨fun neg n _ => if neg then -(n : ℝ) else (n : ℝ)⟩ : NumEnv ℝ) "M0 0A2 1 0 0 0-2-1L5 5".toList =
      ([('M', [((0 : Nat) : ℝ), ((0 : Nat) : ℝ)]), ('A', [((2 : Nat) : ℝ), ((1 : Nat) : ℝ), ((0 : Nat) : ℝ), ofInt 0, ofInt 0, -((2 : Nat) : ℝ), -((1 : Nat) : ℝ)]),
        ('L', [((5 : Nat) : ℝ), ((5 : Nat) : ℝ)])], none) := rfl
    rw [this]; norm_num
  have p2 : parsePath (⟨fun neg n _ => if neg then -(n : ℝ) else (n : ℝ)⟩ : NumEnv ℝ) "M0 0A2 1 0 0 1 0 0".toList =
      ([('M', [0, 0]), ('A', [2, 1, 0, 0, 1, 0, 0])], none) := by
    have : parsePath (⟨fun neg n _ => if neg then -(n : ℝ) else (n : ℝ)⟩ : NumEnv ℝ) "M0 0A2 1 0 0 1 0 0".toList =
      ([('M', [((0 : Nat) : ℝ), ((0 : Nat) : ℝ)]), ('A', [((2 : Nat) : ℝ), ((1 : Nat) : ℝ), ((0 : Nat) : ℝ), ofInt 0, ofInt 1, ((0 : Nat) : ℝ), ((0 : Nat) : ℝ)])], none) := rfl
    rw [this]; norm_num
  refine ⟨p1, ?_, p2, ?_⟩
  · unfold parsePathGeom
    rw [p1]
    obtain ⟨e, he, hs⟩ := lost_arc eps heps h1
    have hf : floatEq eps (2 : ℝ) 1 = false := by
      rw [Bool.eq_false_iff]; intro h; rw [floatEq_iff] at h; norm_num at h; linarith
    have ha : arcShapes eps (rounds + 1) true (⟨0, 0⟩ : P ℝ) ⟨-2, -1⟩ 2 1 0 0 0 = .ok [] := by
      unfold arcShapes
      have hb : PyTrig.beq (0 : ℝ) 0 = true := by simp [real_beq]
      rw [hb, he]
      simp only [bind, Except.bind, hf, Bool.false_eq_true, if_false, if_true]
      rw [C90_refuted _ _ _ hs]
      rfl
    simp [geomLoop, cmdShapes, last2, bind, Except.bind, ha, pure, Except.pure]
  · unfold parsePathGeom
    rw [p2]
    have ha : arcShapes eps (rounds + 1) true (⟨0, 0⟩ : P ℝ) ⟨0, 0⟩ 2 1 0 0 1 = .error .zeroDivision := by
      unfold arcShapes
      rw [C88_refuted.2.2.1 eps ⟨0, 0⟩ 2 1 0 _ true heps (by norm_num; linarith) (by norm_num; linarith)]
      rfl
    simp [geomLoop, cmdShapes, last2, bind, Except.bind, ha, pure, Except.pure]

end Verif.Svg
