import Verif.Ext.Props12
import Verif.Ext.Props7
import Verif.Geom.Props7
import Verif.Geom.Props9

/-!
# C156: the order in which tiles, edges and segments are drawn
-/

set_option linter.unusedSectionVars false

namespace Verif.Ext
open Verif PyFloat PyTrig Geom

/-- Specification: the bearing of a point as seen from another: the angle from the X axis, between 0 and a full turn (0 for the point itself). -/
structure IsBearing (o c : P ℝ) (a : ℝ) : Prop where
  lower : 0 ≤ a
  upper : a < 2 * Real.pi
  x : c.x - o.x = Real.sqrt (sqDist o c) * Real.cos a
  y : c.y - o.y = Real.sqrt (sqDist o c) * Real.sin a
  same : c = o → a = 0

/-- Specification: the number of the ring around `o`, of width `size`, in which a point lies. -/
noncomputable def ringNo (o : P ℝ) (size : ℝ) (c : P ℝ) : Int := ⌊Real.sqrt (sqDist o c) / size⌋

/-- Specification: from the inside out: ring after ring, and in each ring counterclockwise from the X axis; things with the same ring and bearing stay in their order. -/
structure InsideOut {A : Type} (ring : A → Int) (bear : A → ℝ) (l out : List A) : Prop where
  perm : out.Perm l
  sorted : out.Pairwise fun a b => ring a < ring b ∨ (ring a = ring b ∧ bear a ≤ bear b)
  stable : ∀ (k : Int) (t : ℝ), out.filter (fun a => decide (ring a = k) && decide (bear a = t)) = l.filter fun a => decide (ring a = k) && decide (bear a = t)

/-- Specification: from the outside in: the outermost ring first, and in each ring counterclockwise from the X axis; things with the same ring and bearing stay in their order. -/
structure OutsideIn {A : Type} (ring : A → Int) (bear : A → ℝ) (l out : List A) : Prop where
  perm : out.Perm l
  sorted : out.Pairwise fun a b => ring b < ring a ∨ (ring a = ring b ∧ bear a ≤ bear b)
  stable : ∀ (k : Int) (t : ℝ), out.filter (fun a => decide (ring a = k) && decide (bear a = t)) = l.filter fun a => decide (ring a = k) && decide (bear a = t)

theorem bearing_unique {o c : P ℝ} {a b : ℝ} (ha : IsBearing o c a) (hb : IsBearing o c b) : a = b := by
  by_cases e : c = o
  · rw [ha.same e, hb.same e]
  · have hd : 0 < Real.sqrt (sqDist o c) := by
      apply Real.sqrt_pos.2
      rcases lt_or_eq_of_le (sqDist_nonneg o c) with h | h
      · exact h
      · exfalso
        apply e
        unfold sqDist at h
        apply P.ext_real
        · nlinarith [sq_nonneg (o.x - c.x), sq_nonneg (o.y - c.y)]
        · nlinarith [sq_nonneg (o.x - c.x), sq_nonneg (o.y - c.y)]
    have h1 : Real.cos a = Real.cos b := mul_left_cancel₀ hd.ne' (ha.x.symm.trans hb.x)
    have h2 : Real.sin a = Real.sin b := mul_left_cancel₀ hd.ne' (ha.y.symm.trans hb.y)
    have h3 : Real.cos (a - b) = 1 := by rw [Real.cos_sub, h1, h2]; nlinarith [Real.sin_sq_add_cos_sq b]
    obtain ⟨n, hn⟩ := (Real.cos_eq_one_iff _).1 h3
    have hp := Real.pi_pos
    have : n = 0 := by
      have l1 : (n : ℝ) < 1 := by nlinarith [ha.upper, hb.lower]
      have l2 : (-1 : ℝ) < n := by nlinarith [hb.upper, ha.lower]
      have l1' : n < 1 := by exact_mod_cast l1
      have l2' : -1 < n := by exact_mod_cast l2
      omega
    rw [this] at hn
    simp at hn
    linarith

theorem lex_sorted {A κ : Type} [LinearOrder κ] (key : A → κ) (R : A → A → Prop) : ∀ (r : List A), r.Pairwise (fun a b => key a ≤ key b) → (∀ k, (r.filter fun a => decide (key a = k)).Pairwise R) →
    r.Pairwise fun a b => key a < key b ∨ (key a = key b ∧ R a b)
  | [], _, _ => .nil
  | a :: r, h, hR => by
    rw [List.pairwise_cons] at h
    refine List.pairwise_cons.2 ⟨fun b hb => ?_, lex_sorted key R r h.2 fun k => ?_⟩
    · rcases lt_or_eq_of_le (h.1 b hb) with e | e
      · exact .inl e
      · refine .inr ⟨e, ?_⟩
        have := hR (key a)
        rw [List.filter_cons_of_pos (by simp), List.pairwise_cons] at this
        exact this.1 b (List.mem_filter.2 ⟨hb, by simpa using e.symm⟩)
    · have := hR k
      rw [List.filter_cons] at this
      split at this
      · exact (List.pairwise_cons.1 this).2
      · exact this

/-- The key by which the program sorts is the bearing. -/
theorem key_bearing (eps : ℝ) (heps : 0 < eps) (hull c : P ℝ) (hsep : eps ^ 2 ≤ sqDist ⟨hull.x + 1, hull.y⟩ c) : IsBearing hull c (hull.ccwAngle2 eps (hull.add ⟨one, zero⟩) c) := by
  have hadd : hull.add ⟨one, zero⟩ = (⟨hull.x + 1, hull.y⟩ : P ℝ) := by apply P.ext_real <;> simp [P.add]
  unfold P.ccwAngle2
  rw [hadd, angle2_real eps _ _ _ hsep]
  dsimp only
  rw [show (hull.x + 1 - hull.x) * (c.y - hull.y) - (c.x - hull.x) * (hull.y - hull.y) = c.y - hull.y by ring, show (hull.x + 1 - hull.x) * (c.x - hull.x) + (hull.y - hull.y) * (c.y - hull.y) = c.x - hull.x by ring]
  set θ : ℝ := PyTrig.atan2 (c.y - hull.y) (c.x - hull.x) with hθ
  have hC := C33_normalize_angle θ (PyFloat.pi : ℝ)
  obtain ⟨⟨n, hn⟩, h1, h2⟩ := hC
  rw [real_pi] at hn h1 h2 ⊢
  set a := normalizeAngle θ Real.pi with ha
  have e : a = θ + n * (2 * Real.pi) := by linarith
  have hp := polar_atan2 (⟨c.x - hull.x, c.y - hull.y⟩ : P ℝ) (Real.sqrt (sqDist hull c)) (Real.sqrt_nonneg _)
    (by rw [Real.sq_sqrt (sqDist_nonneg _ _)]; unfold sqDist; dsimp only; ring)
  have hang : (⟨c.x - hull.x, c.y - hull.y⟩ : P ℝ).angle = θ := rfl
  rw [hang] at hp
  refine ⟨by linarith, by linarith, ?_, ?_, ?_⟩
  · rw [e, Real.cos_add_int_mul_two_pi]; exact hp.1.symm
  · rw [e, Real.sin_add_int_mul_two_pi]; exact hp.2.symm
  · intro hc
    have hz : θ = 0 := by
      rw [hθ, hc]
      simp [show (⟨0, 0⟩ : ℂ) = 0 from rfl]
    rw [hz, zero_add] at e
    have hpi := Real.pi_pos
    have l1 : (n : ℝ) < 1 := by nlinarith
    have l2 : (-1 : ℝ) < n := by nlinarith
    have l1' : n < 1 := by exact_mod_cast l1
    have l2' : -1 < n := by exact_mod_cast l2
    have : n = 0 := by omega
    rw [e, this]
    simp

/-- Sorting things that have a middle. -/
theorem sortAround_spec {A : Type} (eps : ℝ) (heps : 0 < eps) (hull : P ℝ) (size : ℝ) (hs : 0 < size) (loc : A → Except PyErr (P ℝ)) (mid : A → P ℝ) (bear : A → ℝ) (l : List A)
    (hl : ∀ a ∈ l, loc a = .ok (mid a)) (hb : ∀ a ∈ l, IsBearing hull (mid a) (bear a)) (hsep : ∀ a ∈ l, eps ^ 2 ≤ sqDist ⟨hull.x + 1, hull.y⟩ (mid a)) :
    (∃ out, sortAround eps 1 hull size loc l = .ok out ∧ InsideOut (fun a => ringNo hull size (mid a)) bear l out) ∧
    (∃ out, sortAround eps 2 hull size loc l = .ok out ∧ OutsideIn (fun a => ringNo hull size (mid a)) bear l out) := by
  set ring : A → Int := fun a => ringNo hull size (mid a) with hring
  have m1 : (l.mapM fun a => do
      let c ← loc a
      pure (hull.ccwAngle2 eps (hull.add ⟨one, zero⟩) c, a)) = (.ok (l.map fun a => (bear a, a)) : Except PyErr (List (ℝ × A))) := by
    apply mapM_eq_ok
    intro a ha
    simp only [hl a ha, bind, Except.bind, pure, Except.pure]
    rw [bearing_unique (key_bearing eps heps hull (mid a) (hsep a ha)) (hb a ha)]
  have s1 := sortKeyed_up (fun a b : ℝ => a <. b) (fun a b => by simp) bear l
  set l1 := sortKeyed (fun a b : ℝ => a <. b) false (l.map fun a => (bear a, a)) with hl1
  have m2 : (l1.mapM fun a => do
      let c ← loc a
      let d ← pdiv (hull.distance c) size
      pure (trunc d, a)) = (.ok (l1.map fun a => (ring a, a)) : Except PyErr (List (Int × A))) := by
    apply mapM_eq_ok
    intro a ha
    have ha' : a ∈ l := s1.1.mem_iff.1 ha
    have hd : 0 ≤ Real.sqrt (sqDist hull (mid a)) / size := div_nonneg (Real.sqrt_nonneg _) hs.le
    simp only [hl a ha', bind, Except.bind, pure, Except.pure, pdiv, distance_real, real_beq, real_zero, hs.ne', decide_false, Bool.false_eq_true, if_false, real_div]
    rw [trunc_real, if_pos hd]
    rfl
  have hfil : ∀ (p q : A → Bool) (r r' : List A), (r.filter p = r'.filter p) → r.filter (fun a => p a && q a) = r'.filter (fun a => p a && q a) := by
    intro p q r r' h
    have : ∀ x : List A, x.filter (fun a => p a && q a) = (x.filter p).filter q := by
      intro x
      rw [List.filter_filter]
      congr 1
      funext a
      rw [Bool.and_comm]
    rw [this, this, h]
  have hfil' : ∀ (p q : A → Bool) (r r' : List A), (r.filter q = r'.filter q) → r.filter (fun a => p a && q a) = r'.filter (fun a => p a && q a) := by
    intro p q r r' h
    have := hfil q p r r' h
    simpa only [Bool.and_comm] using this
  constructor
  · have s2 := sortKeyed_up (fun a b : Int => decide (a < b)) (fun a b => rfl) ring l1
    refine ⟨_, ?_, s2.1.trans s1.1, ?_, fun k t => ?_⟩
    · unfold sortAround
      rw [m1]
      simp only [bind, Except.bind]
      erw [m2]
      simp only [if_true, pure, Except.pure]
    · refine lex_sorted ring (fun a b => bear a ≤ bear b) _ s2.2.1 fun k => ?_
      rw [s2.2.2 k]
      exact s1.2.1.filter _
    · rw [hfil _ _ _ _ (s2.2.2 k), hfil' _ _ _ _ (s1.2.2 t)]
  · have s2 := sortKeyed_down (fun a b : Int => decide (a < b)) (fun a b => rfl) ring l1
    refine ⟨_, ?_, s2.1.trans s1.1, ?_, fun k t => ?_⟩
    · unfold sortAround
      rw [m1]
      simp only [bind, Except.bind]
      erw [m2]
      simp only [show ¬ ((2 : Int) = 1) by decide, if_false, if_true, pure, Except.pure]
    · have := lex_sorted (fun a => OrderDual.toDual (ring a)) (fun a b => bear a ≤ bear b) _ s2.2.1 fun k => ?_
      · refine this.imp fun h => ?_
        rcases h with h | ⟨h, h'⟩
        · exact .inl (OrderDual.toDual_lt_toDual.1 h)
        · exact .inr ⟨OrderDual.toDual_inj.1 h, h'⟩
      · rw [s2.2.2 k]
        exact s1.2.1.filter _
    · have hk : (sortKeyed (fun a b : Int => decide (a < b)) true (l1.map fun a => (ring a, a))).filter (fun a => decide (ring a = k)) = l1.filter fun a => decide (ring a = k) := by
        have := s2.2.2 (OrderDual.toDual k)
        simpa only [OrderDual.toDual_inj] using this
      rw [hfil _ _ _ _ hk, hfil' _ _ _ _ (s1.2.2 t)]

/-- **C156 (tiles).** Sorting keeps every tile, once: from the inside out, ring after ring around the middle, or from the outside in, and in each ring counterclockwise starting from the X axis, each tile counting where its centroid is.
(Missing: tiles without area, see `C156_order_refuted`, and centroids within the tolerance of the point one unit right of the middle, whose bearing is taken as 0.) -/
theorem C156_tiles_partial (eps : ℝ) (heps : 0 < eps) (hull : P ℝ) (size : ℝ) (hs : 0 < size) (cen : List (P ℝ) → P ℝ) (bear : List (P ℝ) → ℝ) (tiles : List (List (P ℝ)))
    (hc : ∀ t ∈ tiles, polyCentroid t = .ok (cen t)) (hb : ∀ t ∈ tiles, IsBearing hull (cen t) (bear t)) (hsep : ∀ t ∈ tiles, eps ^ 2 ≤ sqDist ⟨hull.x + 1, hull.y⟩ (cen t)) :
    (∃ out, sortTiles eps 1 hull size tiles = .ok out ∧ InsideOut (fun t => ringNo hull size (cen t)) bear tiles out) ∧
    (∃ out, sortTiles eps 2 hull size tiles = .ok out ∧ OutsideIn (fun t => ringNo hull size (cen t)) bear tiles out) :=
  sortAround_spec eps heps hull size hs polyCentroid cen bear tiles hc hb hsep

/-- **C156 (edges and segments).** Edges and segments are put into the same order, each counting where its middle is. -/
theorem C156_segments_partial (eps : ℝ) (heps : 0 < eps) (hull : P ℝ) (size : ℝ) (hs : 0 < size) (bear : Line ℝ → ℝ) (segs : List (Line ℝ))
    (hb : ∀ s ∈ segs, IsBearing hull (segPt s (1/2)) (bear s)) (hsep : ∀ s ∈ segs, eps ^ 2 ≤ sqDist ⟨hull.x + 1, hull.y⟩ (segPt s (1/2))) :
    (∃ out, sortSegs eps 1 hull size segs = .ok out ∧ InsideOut (fun s => ringNo hull size (segPt s (1/2))) bear segs out) ∧
    (∃ out, sortSegs eps 2 hull size segs = .ok out ∧ OutsideIn (fun s => ringNo hull size (segPt s (1/2))) bear segs out) := by
  refine sortAround_spec eps heps hull size hs (fun s => .ok s.midpoint) (fun s => segPt s (1/2)) bear segs (fun s _ => ?_) hb hsep
  congr 1
  apply P.ext_real <;> simp [Line.midpoint, segPt, P.add, P.mul, lit_real] <;> ring

/-- Every point has a bearing, so that the hypotheses can be met. -/
theorem bearing_exists (o c : P ℝ) : ∃ a, IsBearing o c a := by
  by_cases h : (1/2 : ℝ) ^ 2 ≤ sqDist ⟨o.x + 1, o.y⟩ c
  · exact ⟨_, key_bearing (1/2) (by norm_num) o c h⟩
  · push Not at h
    have hpos : 0 < sqDist ⟨o.x + 1, o.y⟩ c ∨ sqDist ⟨o.x + 1, o.y⟩ c = 0 := by
      rcases lt_or_eq_of_le (sqDist_nonneg ⟨o.x + 1, o.y⟩ c) with h | h
      · exact .inl h
      · exact .inr h.symm
    rcases hpos with hp | hz
    · refine ⟨_, key_bearing (Real.sqrt (sqDist ⟨o.x + 1, o.y⟩ c)) (Real.sqrt_pos.2 hp) o c ?_⟩
      rw [Real.sq_sqrt hp.le]
    · unfold sqDist at hz
      dsimp only at hz
      have hx : c.x = o.x + 1 := by nlinarith [sq_nonneg (o.x + 1 - c.x), sq_nonneg (o.y - c.y)]
      have hy : c.y = o.y := by nlinarith [sq_nonneg (o.x + 1 - c.x), sq_nonneg (o.y - c.y)]
      refine ⟨0, le_refl 0, by linarith [Real.pi_pos], ?_, ?_, fun _ => rfl⟩
      · simp [sqDist, hx, hy]
      · simp [hy]

/-- Non-vacuity: four short segments around the origin, with rings of width 2: one in the inner ring, three in the next, in both orders. -/
example : (sortSegs (1/1000 : ℚ) 1 ⟨0, 0⟩ 2 [⟨⟨0, -2⟩, ⟨0, -4⟩⟩, ⟨⟨-2, 0⟩, ⟨-4, 0⟩⟩, ⟨⟨0, 1⟩, ⟨0, 2⟩⟩, ⟨⟨2, 0⟩, ⟨4, 0⟩⟩]) = .ok [⟨⟨0, 1⟩, ⟨0, 2⟩⟩, ⟨⟨2, 0⟩, ⟨4, 0⟩⟩, ⟨⟨-2, 0⟩, ⟨-4, 0⟩⟩, ⟨⟨0, -2⟩, ⟨0, -4⟩⟩] ∧
    (sortSegs (1/1000 : ℚ) 2 ⟨0, 0⟩ 2 [⟨⟨0, -2⟩, ⟨0, -4⟩⟩, ⟨⟨-2, 0⟩, ⟨-4, 0⟩⟩, ⟨⟨0, 1⟩, ⟨0, 2⟩⟩, ⟨⟨2, 0⟩, ⟨4, 0⟩⟩]) = .ok [⟨⟨2, 0⟩, ⟨4, 0⟩⟩, ⟨⟨-2, 0⟩, ⟨-4, 0⟩⟩, ⟨⟨0, -2⟩, ⟨0, -4⟩⟩, ⟨⟨0, 1⟩, ⟨0, 2⟩⟩] := by decide +kernel

/-- **C156 (refuted): tiles that cannot be sorted.**  If the first side of the first tile has no length (as under an inverted spherical projection, which takes the middle to itself), or a tile has no area, sorting raises `ZeroDivisionError`. -/
theorem C156_order_refuted (eps : ℝ) (sort : Int) (hull : P ℝ) (size : ℝ) (t : List (P ℝ)) (tiles : List (List (P ℝ))) :
    (size = 0 → (∀ t' ∈ t :: tiles, ∃ c, polyCentroid t' = .ok c) → sortTiles eps sort hull size (t :: tiles) = .error .zeroDivision) ∧
    (polyCentroid t = .error .zeroDivision → sortTiles eps sort hull size (t :: tiles) = .error .zeroDivision) := by
  constructor
  · intro hs hc
    have hex : ∃ cen : List (P ℝ) → P ℝ, ∀ t' ∈ t :: tiles, polyCentroid t' = .ok (cen t') := by
      haveI : Nonempty (P ℝ) := ⟨⟨0, 0⟩⟩
      choose! cen hcen using hc
      exact ⟨cen, hcen⟩
    obtain ⟨cen, hcen⟩ := hex
    have m1 : ((t :: tiles).mapM fun a => do
        let c ← polyCentroid a
        pure (hull.ccwAngle2 eps (hull.add ⟨one, zero⟩) c, a)) = (.ok ((t :: tiles).map fun a => (hull.ccwAngle2 eps (hull.add ⟨one, zero⟩) (cen a), a)) : Except PyErr _) := by
      apply mapM_eq_ok
      intro a ha
      simp only [hcen a ha, bind, Except.bind, pure, Except.pure]
    have s1 := sortKeyed_up (fun a b : ℝ => a <. b) (fun a b => by simp) (fun a => hull.ccwAngle2 eps (hull.add ⟨one, zero⟩) (cen a)) (t :: tiles)
    set l1 := sortKeyed (fun a b : ℝ => a <. b) false ((t :: tiles).map fun a => (hull.ccwAngle2 eps (hull.add ⟨one, zero⟩) (cen a), a)) with hl1
    unfold sortTiles sortAround
    rw [m1]
    simp only [bind, Except.bind, ← hl1]
    cases hcase : l1 with
    | nil =>
      have := s1.1.length_eq
      rw [hcase] at this
      simp at this
    | cons a l =>
      have ha : a ∈ t :: tiles := s1.1.mem_iff.1 (by rw [hcase]; exact List.mem_cons_self)
      rw [List.mapM_cons]
      simp only [hcen a ha, bind, Except.bind, pdiv, hs, real_beq, real_zero, decide_true, if_true]
  · intro h
    unfold sortTiles sortAround
    rw [List.mapM_cons]
    simp only [h, bind, Except.bind]

end Verif.Ext
