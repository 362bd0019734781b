import Verif.Cam.Props6
import Verif.Geom.Props5

/-!
# C36, C37, C40: brush strokes, brush reload, trail offset of arcs
-/

set_option linter.unusedSectionVars false

namespace Verif.Cam
open Verif PyFloat PyTrig Geom GCode

/-! ## C36 -/

/-- Specification: the segment is a straight stroke of signed length `len` in direction `dir`. -/
def Stroke (dir : ℝ) (s : Seg ℝ) (len : ℝ) : Prop :=
  ∃ l : Line ℝ, s.shape = .line l ∧ l.p2.x = l.p1.x + len * Real.cos dir ∧ l.p2.y = l.p1.y + len * Real.sin dir

/-- Specification: consecutive segments share an end point exactly. -/
def Connected (p : Path ℝ) : Prop := p.IsChain fun a b => a.p2 = b.p1

/-- Specification: does the landing and lift-off (soft landing) apply? -/
def softOn (o : Opts ℝ) (b : Brush ℝ) (tol : ℝ) : Prop := b.softLanding = true ∧ tol < o.trailOffset

/-- Specification: the overshoot length. -/
noncomputable def overLen (o : Opts ℝ) (b : Brush ℝ) : ℝ := if b.overshootAuto then o.toolWidth / 2 else b.overshootDist

theorem landing_stroke (f : Seg ℝ) (sa d : ℝ) : Stroke sa (landing f sa d) d ∧ (landing f sa d).p2 = f.p1 := by
  refine ⟨⟨_, rfl, ?_, ?_⟩, rfl⟩
  · simp [P.add, P.fromPolar, Real.cos_add_pi]
  · simp [P.add, P.fromPolar, Real.sin_add_pi]

open Classical in
theorem brushStart_spec (e : Env ℝ) (o : Opts ℝ) (b : Brush ℝ) (tol step : ℝ) (first : Seg ℝ) (rest : Path ℝ) :
    ∃ pre, brushStart e o b tol step first rest = pre ++ first :: rest ∧
      List.Forall₂ (Stroke (first.startAngle e.eps)) pre
        ((if softOn o b tol then [o.trailOffset] else []) ++ if tol < b.landingStrip then [b.landingStrip] else []) ∧
      Connected (pre ++ [first]) ∧
      pre.map (·.hints.z) = (if softOn o b tol then [some step] else []) ++ if tol < b.landingStrip then [none] else [] := by
  unfold brushStart
  dsimp only
  have hsoft : (b.softLanding && (tol <. o.trailOffset)) = true ↔ softOn o b tol := by
    simp [softOn]
  by_cases h1 : tol < b.landingStrip
  · have h1' : (tol <. b.landingStrip) = true := by simpa using h1
    rw [if_pos h1', if_pos h1, if_pos h1]
    obtain ⟨hs, he⟩ := landing_stroke first (first.startAngle e.eps) b.landingStrip
    by_cases h2 : softOn o b tol
    · simp only [if_pos (hsoft.2 h2), if_pos h2]
      obtain ⟨hs2, he2⟩ := landing_stroke (landing first (first.startAngle e.eps) b.landingStrip)
        (first.startAngle e.eps) o.trailOffset
      refine ⟨[{ landing (landing first (first.startAngle e.eps) b.landingStrip) (first.startAngle e.eps) o.trailOffset
        with hints := { (landing (landing first (first.startAngle e.eps) b.landingStrip) (first.startAngle e.eps)
          o.trailOffset).hints with z := some step } }, landing first (first.startAngle e.eps) b.landingStrip], rfl,
        .cons hs2 (.cons hs .nil), ?_, rfl⟩
      unfold Connected
      simp only [List.cons_append, List.nil_append, List.isChain_cons_cons, List.isChain_singleton, and_true]
      exact ⟨rfl, he⟩
    · simp only [if_neg (fun h => h2 (hsoft.1 h)), if_neg h2]
      refine ⟨[landing first (first.startAngle e.eps) b.landingStrip], rfl, .cons hs .nil, ?_, rfl⟩
      unfold Connected
      simp only [List.cons_append, List.nil_append, List.isChain_cons_cons, List.isChain_singleton, and_true]
      exact he
  · have h1' : ¬ (tol <. b.landingStrip) = true := by simpa using h1
    rw [if_neg h1', if_neg h1, if_neg h1]
    by_cases h2 : softOn o b tol
    · simp only [if_pos (hsoft.2 h2), if_pos h2]
      obtain ⟨hs2, he2⟩ := landing_stroke first (first.startAngle e.eps) o.trailOffset
      refine ⟨[{ landing first (first.startAngle e.eps) o.trailOffset
        with hints := { (landing first (first.startAngle e.eps) o.trailOffset).hints with z := some step } }], rfl,
        .cons hs2 .nil, ?_, rfl⟩
      unfold Connected
      simp only [List.cons_append, List.nil_append, List.isChain_cons_cons, List.isChain_singleton, and_true]
      rfl
    · simp only [if_neg (fun h => h2 (hsoft.1 h)), if_neg h2]
      exact ⟨[], rfl, .nil, by simp [Connected], rfl⟩

open Classical in
theorem brushEnd_spec (e : Env ℝ) (o : Opts ℝ) (b : Brush ℝ) (tol : ℝ) (last : Seg ℝ) (post : Path ℝ)
    (h : brushEnd e o b tol last = .ok post) :
    List.Forall₂ (Stroke (last.endAngle e.eps)) post
        (if b.overshootEnable = true ∧ tol < overLen o b then
          overLen o b :: (if softOn o b tol then [o.trailOffset] else []) else []) ∧
      Connected (last :: post) ∧
      post.map (·.hints.z) = (if b.overshootEnable = true ∧ tol < overLen o b then
          none :: (if softOn o b tol then [some 0] else []) else []) := by
  unfold brushEnd at h
  have hsoft : (b.softLanding && (tol <. o.trailOffset)) = true ↔ softOn o b tol := by
    simp [softOn]
  have hod : (if b.overshootAuto then o.toolWidth /. ofInt 2 else b.overshootDist) = overLen o b := by
    unfold overLen; split <;> simp
  split at h
  · rename_i h0
    dsimp only at h
    rw [hod] at h
    by_cases h1 : tol < overLen o b
    · have h1' : (tol <. overLen o b) = true := by simpa using h1
      rw [if_pos h1'] at h
      cases h
      have hc : b.overshootEnable = true ∧ tol < overLen o b := ⟨h0, h1⟩
      simp only [if_pos hc]
      by_cases h2 : softOn o b tol
      · simp only [if_pos (hsoft.2 h2), if_pos h2]
        refine ⟨.cons ⟨_, rfl, rfl, rfl⟩ (.cons ⟨_, rfl, rfl, rfl⟩ .nil), ?_, by simp⟩
        unfold Connected
        simp only [List.isChain_cons_cons, List.isChain_singleton, and_true]
        exact ⟨rfl, rfl⟩
      · simp only [if_neg (fun h => h2 (hsoft.1 h)), if_neg h2]
        refine ⟨.cons ⟨_, rfl, rfl, rfl⟩ .nil, ?_, rfl⟩
        unfold Connected
        simp only [List.isChain_cons_cons, List.isChain_singleton, and_true]
        rfl
    · have h1' : ¬ (tol <. overLen o b) = true := by simpa using h1
      rw [if_neg h1'] at h
      split at h
      · cases h
      · cases h
        simp only [if_neg (fun h : b.overshootEnable = true ∧ tol < overLen o b => h1 h.2)]
        exact ⟨.nil, by simp [Connected], rfl⟩
  · rename_i h0
    cases h
    simp only [if_neg (fun h : b.overshootEnable = true ∧ tol < overLen o b => h0 h.1)]
    exact ⟨.nil, by simp [Connected], rfl⟩

open Classical in
/-- **C36**: whenever `process_brush_path` returns, it has kept the stroke `p` and put straight segments before and after it:
before it the soft landing and the landing strip along the start direction (the soft landing coming down from `z_step`),
after it the overshoot and the lift-off (to Z 0) along the end direction, with exactly the configured lengths and without
gaps.  Missing: the settings for which it raises (`C36_refuted_unbound`). -/
theorem C36_brush_partial (e : Env ℝ) (o : Opts ℝ) (b : Brush ℝ) (tol step : ℝ) (p r : Path ℝ) (first last : Seg ℝ)
    (hf : p.head? = some first) (hl : p.getLast? = some last) (h : brushPath e o b tol step p = .ok r) :
    ∃ pre post, r = pre ++ p ++ post ∧ Connected (pre ++ [first]) ∧ Connected (last :: post) ∧
      List.Forall₂ (Stroke (first.startAngle e.eps)) pre
        ((if softOn o b tol then [o.trailOffset] else []) ++ if tol < b.landingStrip then [b.landingStrip] else []) ∧
      List.Forall₂ (Stroke (last.endAngle e.eps)) post
        (if b.overshootEnable = true ∧ tol < overLen o b then
          overLen o b :: (if softOn o b tol then [o.trailOffset] else []) else []) ∧
      pre.map (·.hints.z) = (if softOn o b tol then [some step] else []) ++ (if tol < b.landingStrip then [none] else []) ∧
      post.map (·.hints.z) = (if b.overshootEnable = true ∧ tol < overLen o b then
          none :: (if softOn o b tol then [some 0] else []) else []) := by
  cases p with
  | nil => simp at hf
  | cons f rest =>
    simp only [List.head?_cons, Option.some.injEq] at hf
    subst hf
    obtain ⟨pre, h1, h2, h3, h4⟩ := brushStart_spec e o b tol step f rest
    unfold brushPath at h
    dsimp only at h
    have hlast : (brushStart e o b tol step f rest).getLast? = some last := by
      rw [h1, List.getLast?_append, hl]; rfl
    rw [hlast] at h
    dsimp only at h
    obtain ⟨post, hp, h⟩ := bind_ok h
    cases h
    obtain ⟨h5, h6, h7⟩ := brushEnd_spec e o b tol last post hp
    exact ⟨pre, post, by rw [h1], h3, h6, h2, h5, h4, h7⟩

/-- A connected stroke stays connected. -/
theorem C36_connected (e : Env ℝ) (o : Opts ℝ) (b : Brush ℝ) (tol step : ℝ) (p r : Path ℝ) (hne : p ≠ [])
    (hc : Connected p) (h : brushPath e o b tol step p = .ok r) : Connected r := by
  obtain ⟨pre, post, hr, h1, h2, -⟩ := C36_brush_partial e o b tol step p r (p.head hne) (p.getLast hne)
    (List.head?_eq_some_head hne) (List.getLast?_eq_some_getLast hne) h
  unfold Connected at *
  rw [hr]
  refine List.IsChain.append (List.IsChain.append ?_ hc ?_) ?_ ?_
  · exact h1.left_of_append
  · intro x hx y hy
    rw [List.head?_eq_some_head hne] at hy
    cases hy
    exact (List.isChain_append.1 h1).2.2 x hx _ (by simp)
  · exact h2.tail
  · intro x hx y hy
    have : (pre ++ p).getLast? = some (p.getLast hne) := by
      rw [List.getLast?_append, List.getLast?_eq_some_getLast hne]; rfl
    rw [this] at hx
    cases hx
    cases post with
    | nil => simp at hy
    | cons a post =>
      simp only [List.head?_cons, Option.mem_def, Option.some.injEq] at hy
      subst hy
      exact (List.isChain_cons_cons.1 h2).1

/-- **C36** is refuted for some settings: with overshoot enabled at a length not above the tolerance and soft landing on, every
non-empty stroke raises `UnboundLocalError`. -/
theorem C36_refuted_unbound (e : Env ℝ) (o : Opts ℝ) (b : Brush ℝ) (tol step : ℝ) (p : Path ℝ) (hne : p ≠ [])
    (h1 : b.overshootEnable = true) (h2 : softOn o b tol) (h3 : overLen o b ≤ tol) :
    brushPath e o b tol step p = .error .unboundLocal := by
  cases p with
  | nil => exact absurd rfl hne
  | cons f rest =>
    obtain ⟨pre, hp, -⟩ := brushStart_spec e o b tol step f rest
    unfold brushPath
    dsimp only
    have hlast : (brushStart e o b tol step f rest).getLast? = some ((f :: rest).getLast (by simp)) := by
      rw [hp, List.getLast?_append, List.getLast?_eq_some_getLast (by simp)]; rfl
    rw [hlast]
    dsimp only
    have : brushEnd e o b tol ((f :: rest).getLast (by simp)) = .error .unboundLocal := by
      unfold brushEnd
      have hod : (if b.overshootAuto then o.toolWidth /. ofInt 2 else b.overshootDist) = overLen o b := by
        unfold overLen; split <;> simp
      rw [if_pos h1]
      dsimp only
      rw [hod, if_neg (by simpa using h3), if_pos (by simpa [softOn] using h2)]
    rw [this]; rfl

/-- Non-vacuity: a stroke with everything on. -/
example : brushPath envQ optQ ⟨true, false, 1/8, true, 1/16, false⟩ (1/1000000) (-1/2) (lineQ 0 0 3 0)
    = .ok [⟨.line ⟨⟨-5/16, 0⟩, ⟨-1/16, 0⟩⟩, { z := some (-1/2) }⟩, ⟨.line ⟨⟨-1/16, 0⟩, ⟨0, 0⟩⟩, {}⟩,
        ⟨.line ⟨⟨0, 0⟩, ⟨3, 0⟩⟩, {}⟩, ⟨.line ⟨⟨3, 0⟩, ⟨25/8, 0⟩⟩, {}⟩, ⟨.line ⟨⟨25/8, 0⟩, ⟨27/8, 0⟩⟩, { z := some 0 }⟩] := by
  decide +kernel

/-- Witness of the refutation. -/
example : brushPath envQ optQ ⟨true, false, 0, true, 1/16, false⟩ (1/1000000) (-1/2) (lineQ 0 0 3 0)
    = .error .unboundLocal := by decide +kernel

/-! ## C37 -/

section
variable {K : Type} [Field K] [LinearOrder K] [IsStrictOrderedRing K] [PyTrig K] [ExactFloat K]

theorem genPath_reload (e : Env K) (o : Opts K) (b : Brush K) (hb : o.brush = some b) (hr : b.reloadEnable = true)
    (d : K) (n : Nat) (s : Cam K) (ip : Nat × Path K) (hsel : Selected o ip = true) :
    (s.genPath e o d n ip).err ≠ none := by
  intro h
  obtain ⟨i, p⟩ := ip
  cases p with
  | nil => simp [Selected] at hsel
  | cons first rest =>
    have hi : o.pathCountStart ≤ (i : Int) := by simpa [Selected] using hsel
    unfold Cam.genPath at h
    simp only [if_pos hi] at h
    have h5 := foldl_genSegment_err h
    have h3 := emit_err_none (emit_err_none h5)
    unfold Cam.genRapid at h3
    rw [hb] at h3
    dsimp only at h3
    rw [if_pos hr] at h3
    exact raise_err _ _ h3

theorem genPass_reload (e : Env K) (o : Opts K) (b : Brush K) (hb : o.brush = some b) (hr : b.reloadEnable = true)
    (d : K) (n : Nat) (l : List (Nat × Path K)) (s : Cam K) (hsel : ∃ ip ∈ l, Selected o ip = true) :
    (l.foldl (Cam.genPath e o d n) s).err ≠ none := by
  intro h
  induction l generalizing s with
  | nil => simp at hsel
  | cons ip l ih =>
    have h1 : (l.foldl (Cam.genPath e o d n) (s.genPath e o d n ip)).err = none := h
    obtain ⟨x, hx, hs⟩ := hsel
    rcases List.mem_cons.1 hx with rfl | hx
    · exact genPath_reload e o b hb hr d n s _ hs (genPass_aux_err h1)
    · exact ih _ ⟨x, hx, hs⟩ h1

/-- **C37** is refuted: with brush reload enabled no run that has anything to cut completes — every one ends in an
exception. -/
theorem C37_refuted_reload (e : Env K) (o : Opts K) (b : Brush K) (hb : o.brush = some b)
    (hr : b.reloadEnable = true) (l paths : List (Path K)) (s : Cam K)
    (hp : prepare e o s.gen.cfg.tol l = .ok paths)
    (hsel : ∃ x ∈ paths.zipIdx 1, o.pathCountStart ≤ (x.2 : Int) ∧ x.1 ≠ []) :
    ¬ ∃ ds s', Generate e o l s ds s' ∧ s'.err = none := by
  rintro ⟨ds, s', h, herr⟩
  have hsel' : ∃ ip ∈ enumFrom 1 paths, Selected o ip = true := by
    obtain ⟨x, hx, h1, h2⟩ := hsel
    refine ⟨(x.2, x.1), ?_, ?_⟩
    · rw [enumFrom_eq]; exact List.mem_map.2 ⟨x, hx, rfl⟩
    · simp [Selected, h1, h2]
  cases h with
  | fails er h => exact raise_err _ _ herr
  | noStart paths h h' => rw [herr] at h'; simp at h'
  | runs paths' ds s1 h hst hloop =>
    rw [hp, Except.ok.injEq] at h; subst h
    have h1 := finish_err herr
    have hge : (o.zDepth <=. firstDepth o (effStep e o)) = true := by py; exact firstDepth_ge _ _
    cases hloop with
    | done _ _ _ h => rw [hge] at h; simp at h
    | raised _ _ _ _ h => rw [h1] at h; simp at h
    | pass _ _ _ _ _ _ hok _ =>
      exact genPass_reload e o b hb hr _ _ _ _ hsel' hok

end

/-- Witness: the attribute error is raised at the first path. -/
example : ((Cam.init demo).genRapid envQ { optQ with brush := some ⟨false, false, 0, false, 0, true⟩ }
    ⟨.line ⟨⟨0, 0⟩, ⟨1, 0⟩⟩, {}⟩).err = some .attributeError := by decide +kernel

/-! ## C40 -/

theorem cos_normalize (x c : ℝ) : Real.cos (normalizeAngle x c) = Real.cos x ∧ Real.sin (normalizeAngle x c) = Real.sin x := by
  obtain ⟨⟨n, hn⟩, -⟩ := C33_normalize_angle x c
  have : normalizeAngle x c = x + n * (2 * Real.pi) := by
    have := hn; simp only [real_pi] at this; linarith
  rw [this, Real.cos_add_int_mul_two_pi, Real.sin_add_int_mul_two_pi]
  exact ⟨rfl, rfl⟩

/-- A tangent direction at a point of a circle: a unit vector at right angles to the radius. -/
theorem tangent_perp (c p : P ℝ) (r : ℝ) (hr : 0 ≤ r) (h : sqDist p c = r ^ 2) (cw : Bool) (off : ℝ) (q : P ℝ)
    (hq : q = p.add (P.fromPolar off (normalizeAngle ((if cw then c.sub p else p.sub c).angle +. pi /. ofInt 2) zero))) :
    sqDist q c = r ^ 2 + off ^ 2 := by
  set v := (if cw then c.sub p else p.sub c) with hv
  have hvv : v.x ^ 2 + v.y ^ 2 = r ^ 2 := by
    rw [← h, hv]
    cases cw <;> simp [P.sub, sqDist] <;> ring
  obtain ⟨e1, e2⟩ := polar_atan2 v r hr hvv
  have hc := cos_normalize (v.angle +. pi /. ofInt 2) zero
  have hq' : q.x = p.x + off * -Real.sin v.angle ∧ q.y = p.y + off * Real.cos v.angle := by
    rw [hq]
    have hpi : (v.angle +. pi /. ofInt 2 : ℝ) = v.angle + Real.pi / 2 := by simp
    rw [hpi] at hc ⊢
    rw [Real.cos_add_pi_div_two, Real.sin_add_pi_div_two] at hc
    rw [← hc.1, ← hc.2]
    exact ⟨rfl, rfl⟩
  have hsc := Real.sin_sq_add_cos_sq v.angle
  have hvx : v.x = (if cw then -1 else 1) * (p.x - c.x) := by rw [hv]; cases cw <;> simp [P.sub]
  have hvy : v.y = (if cw then -1 else 1) * (p.y - c.y) := by rw [hv]; cases cw <;> simp [P.sub]
  unfold sqDist at h ⊢
  rw [hq'.1, hq'.2]
  have hperp : (p.x - c.x) * Real.sin v.angle = (p.y - c.y) * Real.cos v.angle := by
    by_cases hr0 : r = 0
    · rw [hr0] at h
      have hx : p.x - c.x = 0 := by nlinarith [sq_nonneg (p.x - c.x), sq_nonneg (p.y - c.y)]
      have hy : p.y - c.y = 0 := by nlinarith [sq_nonneg (p.x - c.x), sq_nonneg (p.y - c.y)]
      rw [hx, hy]; ring
    · have : v.x * Real.sin v.angle = v.y * Real.cos v.angle := by
        rw [← e1, ← e2]; ring
      rw [hvx, hvy] at this
      cases cw
      · simpa using this
      · simp only [if_true] at this; linarith
  linear_combination h + off ^ 2 * hsc - 2 * off * hperp

/-- **C40**: `offset_arc` keeps the centre and the sweep, and if both ends of the arc lie on its circle, both ends of the
result lie on the circle about the same centre with the new radius `√(radius² + offset²)`. -/
theorem C40_offset_arc_concentric (a : Arc ℝ) (h : a.OnCircle) (off : ℝ) :
    ∃ b : Arc ℝ, (offsetArc a off).shape = .arc b ∧ b.center = a.center ∧ b.angle = a.angle ∧
      b.radius = Real.sqrt (off ^ 2 + a.radius ^ 2) ∧ b.OnCircle := by
  refine ⟨_, rfl, rfl, rfl, rfl, Real.sqrt_nonneg _, ?_, ?_⟩
  · show _ = (Real.sqrt (off ^ 2 + a.radius ^ 2)) ^ 2
    rw [Real.sq_sqrt (by positivity), add_comm]
    refine tangent_perp a.center a.p1 a.radius h.1 h.2.1 a.isClockwise off _ ?_
    rfl
  · show _ = (Real.sqrt (off ^ 2 + a.radius ^ 2)) ^ 2
    rw [Real.sq_sqrt (by positivity), add_comm]
    refine tangent_perp a.center a.p2 a.radius h.1 h.2.2 a.isClockwise off _ ?_
    rfl

/-- Non-vacuity: a quarter circle, offset by a non-zero distance. -/
example : (Arc.mk ⟨1, 0⟩ ⟨0, 1⟩ 1 (Real.pi / 2) ⟨0, 0⟩ : Arc ℝ).OnCircle := by
  refine ⟨by norm_num, ?_, ?_⟩ <;> norm_num [sqDist]

end Verif.Cam
