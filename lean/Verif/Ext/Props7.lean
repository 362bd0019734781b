import Verif.Ext.Quasi
import Mathlib.Algebra.BigOperators.Group.Finset.Basic
import Mathlib.Algebra.BigOperators.Intervals
import Mathlib.Analysis.SpecialFunctions.Trigonometric.Basic
import Mathlib.Algebra.Order.Floor.Ring
import Mathlib.Data.List.Flatten
import Mathlib.Data.List.Range

/-!
# C147: the tiles of a quasicrystal tiling
-/

set_option linter.unusedSectionVars false

namespace Verif.Ext
open Verif PyFloat PyTrig Geom

/-! ## Specification: the grid and its tiles -/

/-- The angle of direction `i`: equal steps round the circle; for an even symmetry everything is turned by ten tolerances. -/
noncomputable def gridAngle (q : Quasi ℝ) (i : Nat) : ℝ :=
  (if q.symmetry % 2 = 0 then q.tolerance * 10 else 0) + i * (2 * Real.pi / q.symmetry)

/-- Where a point lies among the parallel lines of direction `i`, whose spacing is 1 and which are numbered across: the
point is on line `k` when this is `k`, and between lines `k` and `k+1` when it is between. -/
noncomputable def place (q : Quasi ℝ) (i : Nat) (p : P ℝ) : ℝ :=
  (p.x - i * q.saltX * Real.cos (gridAngle q i)) * Real.sin (gridAngle q i)
    - (p.y - i * q.saltY * Real.sin (gridAngle q i)) * Real.cos (gridAngle q i) + q.numlines / 2

/-- The point reached by going `k i` unit steps in each direction `i`. -/
noncomputable def stepsTo (q : Quasi ℝ) (k : Nat → Int) : P ℝ :=
  ⟨∑ i ∈ Finset.range q.symmetry, Real.cos (gridAngle q i) * k i, ∑ i ∈ Finset.range q.symmetry, Real.sin (gridAngle q i) * k i⟩

/-- The rhombus with a corner `a` and sides along the unit vectors of the angles `u` and `v`. -/
noncomputable def rhombus (a : P ℝ) (u v : ℝ) : List (P ℝ) :=
  [a, ⟨a.x + Real.cos u, a.y + Real.sin u⟩, ⟨a.x + Real.cos u + Real.cos v, a.y + Real.sin u + Real.sin v⟩,
    ⟨a.x + Real.cos v, a.y + Real.sin v⟩]

/-- The numbers of steps to the corner of the tile of a crossing `p` of line `n` of direction `t` and line `m` of direction `r`. -/
noncomputable def tileSteps (q : Quasi ℝ) (n m t r : Nat) (p : P ℝ) (i : Nat) : Int :=
  if i = r then (m : Int) - 1 else if i = t then (n : Int) - 1 else ⌊place q i p⌋

/-- The crossing `p` of line `n` of direction `t` and line `m` of direction `r` is well inside the lines of all the other directions. -/
def Inside (q : Quasi ℝ) (n m t r : Nat) (p : P ℝ) : Prop :=
  place q t p = n ∧ place q r p = m ∧ ∀ i, i < q.symmetry → i ≠ t → i ≠ r → 1 ≤ place q i p ∧ place q i p < q.numlines - 2

/-- A place the loops look at: lines `n` and `m`, directions `t` before `r`. -/
def OnGrid (q : Quasi ℝ) (c : (Nat × Nat) × (Nat × Nat)) : Prop :=
  (1 ≤ c.1.1 ∧ c.1.1 + 1 < q.numlines) ∧ (1 ≤ c.1.2 ∧ c.1.2 + 1 < q.numlines) ∧ c.2.1 < c.2.2 ∧ c.2.2 < q.symmetry

/-- A tile is drawn for a crossing. -/
def Drawn (q : Quasi ℝ) (c : (Nat × Nat) × (Nat × Nat)) : Prop := ∃ p, Inside q c.1.1 c.1.2 c.2.1 c.2.2 p

/-- The tile of a crossing. -/
def IsTile (q : Quasi ℝ) (c : (Nat × Nat) × (Nat × Nat)) (vs : List (P ℝ)) : Prop :=
  ∃ p, Inside q c.1.1 c.1.2 c.2.1 c.2.2 p ∧
    vs = rhombus (stepsTo q (tileSteps q c.1.1 c.1.2 c.2.1 c.2.2 p)) (gridAngle q c.2.1) (gridAngle q c.2.2)

/-- How far from the middle a pair of line numbers is, in rings of width 0.4. -/
noncomputable def ringOf (numlines : Nat) (nm : Nat × Nat) : Int :=
  ⌊Real.sqrt ((nm.1 - (numlines - 1) / 2) ^ 2 + (nm.2 - (numlines - 1) / 2) ^ 2) / 0.4⌋

/-- The polygons among the calls of the plotter. -/
def polygonsOf : List (Call ℝ) → List (List (P ℝ))
  | [] => []
  | .polygon vs _ :: l => vs :: polygonsOf l
  | _ :: l => polygonsOf l

theorem polygonsOf_append (a b : List (Call ℝ)) : polygonsOf (a ++ b) = polygonsOf a ++ polygonsOf b := by
  induction a with
  | nil => rfl
  | cons c a ih => cases c <;> simp [polygonsOf, ih]

/-! ## The vectors -/

/-- What the vector of direction `i` is. -/
structure IsVec (q : Quasi ℝ) (i : Nat) (v : QVec ℝ) : Prop where
  x : v.x = Real.cos (gridAngle q i)
  y : v.y = Real.sin (gridAngle q i)
  ne : v.x ≠ 0
  m : v.m = v.y / v.x
  b : v.b = (List.range q.numlines).map (qIntercept v.x v.y v.m q.saltX q.saltY i q.numlines)

theorem getIx_some {A : Type} {l : List A} {i : Nat} {a : A} (h : l[i]? = some a) : getIx l i = .ok a := by
  unfold getIx; rw [h]

theorem getIx_ok {A : Type} {l : List A} {i : Nat} {a : A} (h : getIx l i = .ok a) : l[i]? = some a := by
  unfold getIx at h
  split at h
  · simp_all
  · exact absurd h (by simp)

theorem qVec_ok {angle : ℝ} {slot numlines : Nat} {sx sy : ℝ} {v : QVec ℝ} (h : qVec angle slot numlines sx sy = .ok v) :
    v.x = Real.cos angle ∧ v.y = Real.sin angle ∧ v.x ≠ 0 ∧ v.m = v.y / v.x ∧
      v.b = (List.range numlines).map (qIntercept v.x v.y v.m sx sy slot numlines) := by
  unfold qVec pdiv at h
  by_cases hz : Real.cos angle = 0
  · simp [bind, Except.bind, hz] at h
  · simp only [bind, Except.bind, pure, Except.pure, real_cos, real_sin, real_beq, real_zero, hz, decide_false,
      Bool.false_eq_true, if_false, Except.ok.injEq] at h
    subst h
    exact ⟨rfl, rfl, hz, rfl, rfl⟩

theorem qVec_some {angle : ℝ} {slot numlines : Nat} {sx sy : ℝ} (hz : Real.cos angle ≠ 0) :
    ∃ v, qVec angle slot numlines sx sy = .ok v := by
  unfold qVec pdiv
  simp [bind, Except.bind, pure, Except.pure, hz]

theorem qVec_error {angle : ℝ} {slot numlines : Nat} {sx sy : ℝ} {e : PyErr} (h : qVec angle slot numlines sx sy = .error e) :
    e = .zeroDivision := by
  unfold qVec pdiv at h
  by_cases hz : Real.cos angle = 0
  · simp [bind, Except.bind, hz] at h; exact h.symm
  · simp [bind, Except.bind, pure, Except.pure, hz] at h

theorem initFrom_ok (q : Quasi ℝ) (phi a0 : ℝ) : ∀ (k t : Nat) (l : List (QVec ℝ)),
    initFrom q phi k t (a0 + t * phi) = .ok l → l.length = k ∧ ∀ j v, l[j]? = some v →
      qVec (a0 + (t + j : Nat) * phi) (t + j) q.numlines q.saltX q.saltY = .ok v := by
  intro k
  induction k with
  | zero =>
    intro t l h
    simp only [initFrom, Except.ok.injEq] at h
    subst h
    exact ⟨rfl, by intro j v h; simp at h⟩
  | succ k ih =>
    intro t l h
    simp only [initFrom, bind, Except.bind, pure, Except.pure] at h
    split at h
    · exact absurd h (by simp)
    rename_i v hv
    split at h
    · exact absurd h (by simp)
    rename_i rest hr
    simp only [Except.ok.injEq] at h
    subst h
    have e : (a0 + (t : ℝ) * phi) +. phi = a0 + ((t + 1 : Nat) : ℝ) * phi := by
      simp only [real_add]; push_cast; ring
    rw [e] at hr
    obtain ⟨h1, h2⟩ := ih (t + 1) rest hr
    refine ⟨by simp [h1], ?_⟩
    intro j w hw
    cases j with
    | zero => simp at hw; subst hw; simpa using hv
    | succ j =>
      simp at hw
      have := h2 j w hw
      rw [show t + (j + 1) = t + 1 + j by omega]
      exact this

theorem initFrom_total (q : Quasi ℝ) (phi a0 : ℝ) : ∀ (k t : Nat),
    (∀ j, j < k → Real.cos (a0 + (t + j : Nat) * phi) ≠ 0) → ∃ l, initFrom q phi k t (a0 + t * phi) = .ok l := by
  intro k
  induction k with
  | zero => intro t _; exact ⟨[], rfl⟩
  | succ k ih =>
    intro t h
    obtain ⟨v, hv⟩ := qVec_some (slot := t) (numlines := q.numlines) (sx := q.saltX) (sy := q.saltY) (h 0 (by omega))
    obtain ⟨l, hl⟩ := ih (t + 1) (by intro j hj; have := h (j + 1) (by omega); rwa [show t + 1 + j = t + (j + 1) by omega])
    have e : (a0 + (t : ℝ) * phi) +. phi = a0 + ((t + 1 : Nat) : ℝ) * phi := by
      simp only [real_add]; push_cast; ring
    refine ⟨v :: l, ?_⟩
    simp only [Nat.add_zero] at hv
    simp only [initFrom, bind, Except.bind, pure, Except.pure, hv, e, hl]

theorem initFrom_error (q : Quasi ℝ) (phi : ℝ) : ∀ (k t : Nat) (a : ℝ) (e : PyErr), initFrom q phi k t a = .error e → e = .zeroDivision := by
  intro k
  induction k with
  | zero => intro t a e h; simp [initFrom] at h
  | succ k ih =>
    intro t a e h
    simp only [initFrom, bind, Except.bind, pure, Except.pure] at h
    split at h
    · rename_i hv
      simp only [Except.error.injEq] at h
      subst h
      exact qVec_error hv
    · split at h
      · rename_i hr
        simp only [Except.error.injEq] at h
        subst h
        exact ih _ _ _ hr
      · exact absurd h (by simp)

/-- The vectors are those of the directions. -/
def IsVecs (q : Quasi ℝ) (vs : List (QVec ℝ)) : Prop := vs.length = q.symmetry ∧ ∀ i v, vs[i]? = some v → IsVec q i v

theorem initVectors_eq (q : Quasi ℝ) (hs : q.symmetry ≠ 0) : initVectors q =
    initFrom q (2 * Real.pi / q.symmetry) q.symmetry 0
      ((if q.symmetry % 2 = 0 then q.tolerance * 10 else 0) + (0 : Nat) * (2 * Real.pi / q.symmetry)) := by
  unfold initVectors pdiv
  have : ((q.symmetry : ℤ) : ℝ) ≠ 0 := by exact_mod_cast hs
  simp only [bind, Except.bind, real_beq, real_ofInt, real_zero, this, decide_false, Bool.false_eq_true, if_false, real_mul,
    real_div, real_pi]
  congr 1
  norm_num

theorem initVectors_ok {q : Quasi ℝ} {vs : List (QVec ℝ)} (h : initVectors q = .ok vs) : IsVecs q vs := by
  by_cases hs : q.symmetry = 0
  · unfold initVectors pdiv at h
    simp [bind, Except.bind, hs] at h
  rw [initVectors_eq q hs] at h
  obtain ⟨h1, h2⟩ := initFrom_ok q _ _ _ _ _ h
  refine ⟨h1, ?_⟩
  intro i v hv
  have := h2 i v hv
  rw [Nat.zero_add] at this
  obtain ⟨a, b, c, d, e⟩ := qVec_ok this
  exact ⟨a, b, c, d, e⟩

theorem initVectors_error {q : Quasi ℝ} {e : PyErr} (h : initVectors q = .error e) : e = .zeroDivision := by
  by_cases hs : q.symmetry = 0
  · unfold initVectors pdiv at h
    simp [bind, Except.bind, hs] at h
    exact h.symm
  rw [initVectors_eq q hs] at h
  exact initFrom_error _ _ _ _ _ _ h

/-- Being on a line, by its slope and intercept. -/
theorem intercept_place (q : Quasi ℝ) (i : Nat) (v : QVec ℝ) (hv : IsVec q i v) (k : Nat) (p : P ℝ) :
    place q i p - k = v.x * (v.m * p.x + qIntercept v.x v.y v.m q.saltX q.saltY i q.numlines k - p.y) := by
  have hm : v.x * v.m = v.y := by rw [hv.m]; field_simp [hv.ne]
  have h1 : v.x ^ 2 + v.y ^ 2 = 1 := by rw [hv.x, hv.y]; exact Real.cos_sq_add_sin_sq _
  unfold place qIntercept
  rw [← hv.x, ← hv.y]
  simp only [real_add, real_sub, real_mul, real_div, real_ofInt]
  push_cast
  linear_combination (-(p.x) + (v.x * (i * q.saltX) + v.y * (k - q.numlines / 2))) * hm + (k - q.numlines / 2) * h1

theorem IsVec.line {q : Quasi ℝ} {i : Nat} {v : QVec ℝ} (hv : IsVec q i v) {k : Nat} {b : ℝ} (h : v.b[k]? = some b) (p : P ℝ) :
    place q i p - k = v.x * (v.m * p.x + b - p.y) := by
  rw [hv.b] at h
  simp only [List.getElem?_map, Option.map_eq_some_iff] at h
  obtain ⟨j, hj, rfl⟩ := h
  rw [List.getElem?_range] at hj
  · simp at hj; subst hj
    exact intercept_place q i v hv k p
  · by_contra hc
    simp at hc
    simp [List.getElem?_eq_none, hc] at hj

theorem IsVec.has {q : Quasi ℝ} {i : Nat} {v : QVec ℝ} (hv : IsVec q i v) {k : Nat} (hk : k < q.numlines) : ∃ b, getIx v.b k = .ok b := by
  have : k < v.b.length := by rw [hv.b]; simpa using hk
  exact ⟨v.b[k], getIx_some (List.getElem?_eq_getElem this)⟩

/-- The slopes of two directions are equal when the directions are parallel. -/
theorem slopes_eq {q : Quasi ℝ} {t r : Nat} {v1 v2 : QVec ℝ} (h1 : IsVec q t v1) (h2 : IsVec q r v2) :
    v2.m - v1.m = 0 ↔ Real.sin (gridAngle q r - gridAngle q t) = 0 := by
  rw [h1.m, h2.m, Real.sin_sub, ← h1.x, ← h1.y, ← h2.x, ← h2.y, sub_eq_zero, div_eq_div_iff h2.ne h1.ne]
  constructor <;> intro h <;> linear_combination h

/-- The crossing that is worked out is the one point on both lines. -/
theorem crossing_ok {q : Quasi ℝ} {t r n m : Nat} {v1 v2 : QVec ℝ} {p : P ℝ} (h1 : IsVec q t v1) (h2 : IsVec q r v2)
    (h : crossing v1 v2 n m = .ok p) : ∀ p', (place q t p' = n ∧ place q r p' = m) ↔ p' = p := by
  unfold crossing pdiv at h
  simp only [bind, Except.bind, pure, Except.pure] at h
  split at h
  · exact absurd h (by simp)
  rename_i b1 hb1
  split at h
  · exact absurd h (by simp)
  rename_i b2 hb2
  have hb1 := getIx_ok hb1
  have hb2 := getIx_ok hb2
  by_cases hz : v2.m - v1.m = 0
  · simp [hz] at h
  simp only [real_beq, real_sub, real_zero, hz, decide_false, Bool.false_eq_true, if_false, Except.ok.injEq, real_add,
    real_mul, real_div] at h
  subst h
  intro p'
  have l1 := h1.line hb1 p'
  have l2 := h2.line hb2 p'
  have e1 : place q t p' = n ↔ v1.m * p'.x + b1 - p'.y = 0 := by
    rw [← sub_eq_zero, l1, mul_eq_zero]; exact ⟨fun h => h.resolve_left h1.ne, Or.inr⟩
  have e2 : place q r p' = m ↔ v2.m * p'.x + b2 - p'.y = 0 := by
    rw [← sub_eq_zero, l2, mul_eq_zero]; exact ⟨fun h => h.resolve_left h2.ne, Or.inr⟩
  rw [e1, e2]
  constructor
  · rintro ⟨a, b⟩
    have hx : p'.x = (b1 - b2) / (v2.m - v1.m) := by rw [eq_div_iff hz]; linear_combination b - a
    cases p'
    simp only at hx a ⊢
    congr 1
    rw [← hx]; linear_combination -a
  · intro e
    subst e
    have : (v2.m - v1.m) * ((b1 - b2) / (v2.m - v1.m)) = b1 - b2 := by field_simp
    refine ⟨by ring, ?_⟩
    dsimp only
    linear_combination this

theorem crossing_total {q : Quasi ℝ} {t r n m : Nat} {v1 v2 : QVec ℝ} (h1 : IsVec q t v1) (h2 : IsVec q r v2)
    (hn : n < q.numlines) (hm : m < q.numlines) :
    (Real.sin (gridAngle q r - gridAngle q t) = 0 → crossing v1 v2 n m = .error .zeroDivision) ∧
      (Real.sin (gridAngle q r - gridAngle q t) ≠ 0 → ∃ p, crossing v1 v2 n m = .ok p) := by
  obtain ⟨b1, hb1⟩ := h1.has hn
  obtain ⟨b2, hb2⟩ := h2.has hm
  unfold crossing pdiv
  simp only [bind, Except.bind, pure, Except.pure, hb1, hb2]
  rw [ne_eq, ← slopes_eq h1 h2]
  constructor <;> intro hz <;> simp [hz]

theorem ladder_ok {q : Quasi ℝ} {i : Nat} {v : QVec ℝ} (hv : IsVec q i v) (hN : 0 < q.numlines) (p : P ℝ) :
    ladderIndex v p = .ok (trunc (place q i p)) := by
  obtain ⟨b, hb⟩ := hv.has hN
  have := hv.line (getIx_ok hb) p
  have hm : v.x * v.m = v.y := by rw [hv.m]; field_simp [hv.ne]
  unfold ladderIndex
  simp only [bind, Except.bind, pure, Except.pure, hb, real_neg, real_add, real_sub, real_mul]
  congr 2
  push_cast at this
  linear_combination -this - p.x * hm

theorem trunc_real (x : ℝ) : (trunc x : Int) = if 0 ≤ x then ⌊x⌋ else ⌈x⌉ := rfl

theorem trunc_out (x : ℝ) (N : Nat) : ¬ ((trunc x : Int) > (N : Int) - 3 ∨ (trunc x : Int) < 1) ↔ (1 ≤ x ∧ x < N - 2) := by
  rw [trunc_real]
  by_cases h : 0 ≤ x
  · rw [if_pos h]
    push Not
    constructor
    · rintro ⟨a, b⟩
      refine ⟨by have := Int.floor_le x; have : ((1 : Int) : ℝ) ≤ ⌊x⌋ := by exact_mod_cast b
                 push_cast at this; linarith, ?_⟩
      have h1 := Int.lt_floor_add_one x
      have : ((⌊x⌋ : Int) : ℝ) ≤ ((N : Int) - 3 : Int) := by exact_mod_cast a
      push_cast at this
      linarith
    · rintro ⟨a, b⟩
      refine ⟨?_, Int.le_floor.mpr (by exact_mod_cast a)⟩
      have : ⌊x⌋ < (N : Int) - 2 := Int.floor_lt.mpr (by push_cast; exact b)
      omega
  · rw [if_neg h]
    push Not at h
    constructor
    · intro hc
      exfalso
      apply hc
      right
      have : ⌈x⌉ ≤ 0 := Int.ceil_le.mpr (by push_cast; exact h.le)
      omega
    · rintro ⟨a, _⟩; linarith

theorem trunc_in {x : ℝ} (h : 1 ≤ x) : (trunc x : Int) = ⌊x⌋ := by rw [trunc_real, if_pos (by linarith)]

/-! ## The loop over the other directions -/

theorem scan_ok {q : Quasi ℝ} (hN : 0 < q.numlines) (p : P ℝ) (t r : Nat) : ∀ (vs : List (QVec ℝ)) (i : Nat) (index : List Int),
    (∀ j v, vs[j]? = some v → IsVec q (i + j) v) → ∃ index' b, scanFrom q.numlines p t r vs i index = .ok (index', b) ∧
      index'.length = index.length ∧
      (b = true ↔ ∀ j, j < vs.length → i + j ≠ t → i + j ≠ r → 1 ≤ place q (i + j) p ∧ place q (i + j) p < q.numlines - 2) ∧
      (b = true → ∀ k, k < index.length →
        index'[k]? = if i ≤ k ∧ k < i + vs.length ∧ k ≠ t ∧ k ≠ r then some ⌊place q k p⌋ else index[k]?) := by
  intro vs
  induction vs with
  | nil =>
    intro i index _
    refine ⟨index, true, rfl, rfl, ?_, ?_⟩
    · simp
    · intro _ k _
      rw [if_neg]
      simp only [List.length_nil]; omega
  | cons v vs ih =>
    intro i index hv
    have hv0 : IsVec q i v := by simpa using hv 0 v (by simp)
    have hvs : ∀ j w, vs[j]? = some w → IsVec q (i + 1 + j) w := by
      intro j w hw
      have := hv (j + 1) w (by simpa using hw)
      rwa [show i + (j + 1) = i + 1 + j by omega] at this
    unfold scanFrom
    by_cases hit : i ≠ t ∧ i ≠ r
    · rw [if_pos hit, ladder_ok hv0 hN p]
      simp only [bind, Except.bind, pure, Except.pure]
      by_cases hout : (trunc (place q i p) : Int) > (q.numlines : Int) - 3 ∨ (trunc (place q i p) : Int) < 1
      · rw [if_pos hout]
        refine ⟨_, false, rfl, by simp, ?_, by simp⟩
        simp only [Bool.false_eq_true, false_iff]
        intro hc
        exact ((trunc_out _ _).mpr (by simpa using hc 0 (by simp) (by simpa using hit.1) (by simpa using hit.2))) hout
      · rw [if_neg hout]
        have hin := (trunc_out _ _).mp hout
        obtain ⟨index', b, e, hl, hb, hk⟩ := ih (i + 1) (index.set i (trunc (place q i p))) hvs
        refine ⟨index', b, e, by simpa using hl, ?_, ?_⟩
        · rw [hb]
          constructor
          · intro h j hj h1 h2
            cases j with
            | zero => simpa using hin
            | succ j =>
              have := h j (by simpa using hj) (by omega) (by omega)
              rwa [show i + 1 + j = i + (j + 1) by omega] at this
          · intro h j hj h1 h2
            have := h (j + 1) (by simpa using hj) (by omega) (by omega)
            rwa [show i + (j + 1) = i + 1 + j by omega] at this
        · intro hbt k hkl
          rw [hk hbt k (by simpa using hkl)]
          rw [trunc_in hin.1]
          by_cases hki : k = i
          · subst hki
            rw [if_neg (by omega), if_pos ⟨le_refl _, by simp, hit.1, hit.2⟩]
            rw [List.getElem?_set_self hkl]
          · by_cases hc : i + 1 ≤ k ∧ k < i + 1 + vs.length ∧ k ≠ t ∧ k ≠ r
            · rw [if_pos hc, if_pos ⟨by omega, by simp only [List.length_cons]; omega, hc.2.2.1, hc.2.2.2⟩]
            · rw [if_neg hc, if_neg (by simp only [List.length_cons]; omega), List.getElem?_set_ne (fun h => hki h.symm)]
    · rw [if_neg hit]
      obtain ⟨index', b, e, hl, hb, hk⟩ := ih (i + 1) index hvs
      refine ⟨index', b, e, hl, ?_, ?_⟩
      · rw [hb]
        constructor
        · intro h j hj h1 h2
          cases j with
          | zero => exact absurd ⟨by simpa using h1, by simpa using h2⟩ hit
          | succ j =>
            have := h j (by simpa using hj) (by omega) (by omega)
            rwa [show i + 1 + j = i + (j + 1) by omega] at this
        · intro h j hj h1 h2
          have := h (j + 1) (by simpa using hj) (by omega) (by omega)
          rwa [show i + (j + 1) = i + 1 + j by omega] at this
      · intro hbt k hkl
        rw [hk hbt k hkl]
        by_cases hki : k = i
        · subst hki
          rw [if_neg (by omega), if_neg (by rintro ⟨_, _, a, b⟩; exact hit ⟨a, b⟩)]
        · by_cases hc : i + 1 ≤ k ∧ k < i + 1 + vs.length ∧ k ≠ t ∧ k ≠ r
          · rw [if_pos hc, if_pos ⟨by omega, by simp only [List.length_cons]; omega, hc.2.2.1, hc.2.2.2⟩]
          · rw [if_neg hc, if_neg (by simp only [List.length_cons]; omega)]


/-! ## One tile -/

theorem foldl_corner (l : List (QVec ℝ × Int)) : ∀ p : P ℝ,
    l.foldl (fun (p : P ℝ) vi => (⟨p.x +. (vi.1.x *. ofInt vi.2), p.y +. (vi.1.y *. ofInt vi.2)⟩ : P ℝ)) p =
      ⟨p.x + (l.map fun vi => vi.1.x * (vi.2 : ℝ)).sum, p.y + (l.map fun vi => vi.1.y * (vi.2 : ℝ)).sum⟩ := by
  induction l with
  | nil => intro p; simp
  | cons a l ih =>
    intro p
    rw [List.foldl_cons, ih]
    simp only [List.map_cons, List.sum_cons, real_add, real_mul, real_ofInt]
    congr 1 <;> ring

theorem sum_range_map (f : Nat → ℝ) : ∀ n, ((List.range n).map f).sum = ∑ i ∈ Finset.range n, f i := by
  intro n
  induction n with
  | zero => simp
  | succ n ih => rw [List.range_succ, List.map_append, List.sum_append, ih, Finset.sum_range_succ]; simp

theorem tileCorner_eq {q : Quasi ℝ} {vs : List (QVec ℝ)} (hvs : IsVecs q vs) {index : List Int} (k : Nat → Int)
    (hl : index.length = q.symmetry) (hk : ∀ i, i < q.symmetry → index[i]? = some (k i)) : tileCorner vs index = stepsTo q k := by
  unfold tileCorner stepsTo
  rw [foldl_corner, ← sum_range_map, ← sum_range_map]
  have key : ∀ (f : QVec ℝ → ℝ) (g : Nat → ℝ), (∀ i v, vs[i]? = some v → f v = g i) →
      (vs.zip index).map (fun vi => f vi.1 * (vi.2 : ℝ)) = (List.range q.symmetry).map (fun i => g i * (k i : ℝ)) := by
    intro f g hfg
    apply List.ext_getElem?
    intro i
    by_cases hi : i < q.symmetry
    · have h1 : i < vs.length := by rw [hvs.1]; exact hi
      have h2 : vs[i]? = some vs[i] := List.getElem?_eq_getElem h1
      simp only [List.getElem?_map, List.zip, List.getElem?_zipWith, h2, hk i hi, List.getElem?_range hi, Option.map_some]
      rw [hfg i _ h2]
    · rw [List.getElem?_eq_none, List.getElem?_eq_none]
      · simp; omega
      · simp [hvs.1, hl]; omega
  rw [key (fun v => v.x) _ (fun i v h => (hvs.2 i v h).x), key (fun v => v.y) _ (fun i v h => (hvs.2 i v h).y)]
  simp

/-- What is plotted for one crossing, after what has been plotted before: the tile, and if the plotter drew it whole, its segments. -/
def Group (q : Quasi ℝ) (before : List (Call ℝ)) (c : (Nat × Nat) × (Nat × Nat)) (g : List (Call ℝ)) : Prop :=
  ∃ p v1 v2 segs, Inside q c.1.1 c.1.2 c.2.1 c.2.2 p ∧ IsVec q c.2.1 v1 ∧ IsVec q c.2.2 v2 ∧
    Real.sin (gridAngle q c.2.2 - gridAngle q c.2.1) ≠ 0 ∧
    g = .polygon (rhombus (stepsTo q (tileSteps q c.1.1 c.1.2 c.2.1 c.2.2 p)) (gridAngle q c.2.1) (gridAngle q c.2.2))
      (q.rnd |Real.cos (gridAngle q c.2.2 - gridAngle q c.2.1)|) :: segs ∧
    (q.accepts (before ++ [.polygon (rhombus (stepsTo q (tileSteps q c.1.1 c.1.2 c.2.1 c.2.2 p)) (gridAngle q c.2.1) (gridAngle q c.2.2))
      (q.rnd |Real.cos (gridAngle q c.2.2 - gridAngle q c.2.1)|)]) = true →
        tileSegs q (stepsTo q (tileSteps q c.1.1 c.1.2 c.2.1 c.2.2 p)) v1 v2 = .ok segs) ∧
    (q.accepts (before ++ [.polygon (rhombus (stepsTo q (tileSteps q c.1.1 c.1.2 c.2.1 c.2.2 p)) (gridAngle q c.2.1) (gridAngle q c.2.2))
      (q.rnd |Real.cos (gridAngle q c.2.2 - gridAngle q c.2.1)|)]) = false → segs = [])

theorem tileVertices_eq {q : Quasi ℝ} {t r : Nat} {v1 v2 : QVec ℝ} (h1 : IsVec q t v1) (h2 : IsVec q r v2) (a : P ℝ) :
    tileVertices a v1 v2 = rhombus a (gridAngle q t) (gridAngle q r) := by
  unfold tileVertices rhombus
  simp only [real_add, h1.x, h1.y, h2.x, h2.y]

theorem dot_eq {q : Quasi ℝ} {t r : Nat} {v1 v2 : QVec ℝ} (h1 : IsVec q t v1) (h2 : IsVec q r v2) :
    v1.x * v2.x + v1.y * v2.y = Real.cos (gridAngle q r - gridAngle q t) := by
  rw [Real.cos_sub, h1.x, h1.y, h2.x, h2.y]; ring

theorem pdiv_error {a b : ℝ} {e : PyErr} (h : pdiv a b = .error e) : e = .zeroDivision := by
  unfold pdiv at h
  split at h
  · simp only [Except.error.injEq] at h; exact h.symm
  · exact absurd h (by simp)

theorem midSegs_error {q : Quasi ℝ} {s : Int} {p : P ℝ} {v1 v2 : QVec ℝ} {d : ℝ} {e : PyErr} (h : midSegs q s p v1 v2 d = .error e) :
    e = .zeroDivision := by
  unfold midSegs at h
  simp only [bind, Except.bind, pure, Except.pure] at h
  split at h
  · exact absurd h (by simp)
  split at h
  · exact absurd h (by simp)
  split at h
  · split at h <;> exact absurd h (by simp)
  split at h
  · split at h
    · rename_i hd
      simp only [Except.error.injEq] at h
      subst h
      exact pdiv_error hd
    · exact absurd h (by simp)
  · exact absurd h (by simp)

theorem tileSegs_error {q : Quasi ℝ} {p : P ℝ} {v1 v2 : QVec ℝ} {e : PyErr} (h : tileSegs q p v1 v2 = .error e) : e = .zeroDivision := by
  unfold tileSegs at h
  dsimp only at h
  by_cases h1 : q.segSkinny > 0 ∨ q.segFat > 0
  · rw [if_pos h1] at h
    generalize (if q.skinnyFat <. PyFloat.abs ((v1.x *. v2.x) +. (v1.y *. v2.y)) then q.segSkinny else q.segFat) = s at h
    split at h
    · exact midSegs_error h
    · exact absurd h (by simp)
  · rw [if_neg h1] at h
    exact absurd h (by simp)

/-- What one turn of the loops does. -/
theorem step_spec {q : Quasi ℝ} {vs : List (QVec ℝ)} (hvs : IsVecs q vs) {c : (Nat × Nat) × (Nat × Nat)} (hc : OnGrid q c)
    (st : QState ℝ) (hl : st.index.length = q.symmetry) :
    (Real.sin (gridAngle q c.2.2 - gridAngle q c.2.1) = 0 → quasiStep q vs st c = .error .zeroDivision) ∧
    (∀ e, quasiStep q vs st c = .error e → e = .zeroDivision) ∧
    (∀ e, Real.sin (gridAngle q c.2.2 - gridAngle q c.2.1) ≠ 0 → quasiStep q vs st c = .error e →
      ∃ p v1 v2, IsVec q c.2.1 v1 ∧ IsVec q c.2.2 v2 ∧ tileSegs q p v1 v2 = .error e) ∧
    (∀ st', quasiStep q vs st c = .ok st' → st'.index.length = q.symmetry ∧
      ((∃ g, Group q st.calls c g ∧ st'.calls = st.calls ++ g) ∨ (¬ Drawn q c ∧ st'.calls = st.calls))) := by
  obtain ⟨⟨n, m⟩, ⟨t, r⟩⟩ := c
  obtain ⟨⟨hn1, hn2⟩, ⟨hm1, hm2⟩, htr, hr⟩ := hc
  dsimp only at *
  have hN : 0 < q.numlines := by omega
  have ht' : t < vs.length := by rw [hvs.1]; omega
  have hr' : r < vs.length := by rw [hvs.1]; omega
  have g1 : vs[t]? = some vs[t] := List.getElem?_eq_getElem ht'
  have g2 : vs[r]? = some vs[r] := List.getElem?_eq_getElem hr'
  have i1 := hvs.2 t _ g1
  have i2 := hvs.2 r _ g2
  generalize vs[t] = v1 at g1 i1
  generalize vs[r] = v2 at g2 i2
  obtain ⟨c0, c1⟩ := crossing_total (n := n) (m := m) i1 i2 (by omega) (by omega)
  unfold quasiStep
  simp only [bind, Except.bind, pure, Except.pure, getIx_some g1, getIx_some g2]
  by_cases hz : Real.sin (gridAngle q r - gridAngle q t) = 0
  · rw [c0 hz]
    refine ⟨fun _ => rfl, ?_, fun e h => absurd hz h, ?_⟩
    · intro e h; simp only [Except.error.injEq] at h; exact h.symm
    · intro st' h; exact absurd h (by simp)
  obtain ⟨p, hp⟩ := c1 hz
  have hcross := crossing_ok i1 i2 hp
  rw [hp]
  dsimp only
  obtain ⟨index', b, e, hlen, hb, hidx⟩ := scan_ok hN p t r vs 0 st.index (by intro j v h; simpa using hvs.2 j v h)
  rw [e]
  dsimp only
  obtain ⟨hpt, hpr⟩ := (hcross p).mpr rfl
  have hin : b = true ↔ Inside q n m t r p := by
    rw [hb]
    unfold Inside
    constructor
    · intro h
      exact ⟨hpt, hpr, fun i hi h1 h2 => by simpa using h i (by rw [hvs.1]; exact hi) (by simpa using h1) (by simpa using h2)⟩
    · rintro ⟨_, _, h⟩ j hj h1 h2
      rw [Nat.zero_add] at *
      exact h j (by rw [← hvs.1]; exact hj) h1 h2
  by_cases hbt : b = true
  · rw [if_pos hbt]
    have hins := hin.mp hbt
    have hk : ∀ i, i < q.symmetry → ((index'.set t ((n : Int) - 1)).set r ((m : Int) - 1))[i]? = some (tileSteps q n m t r p i) := by
      intro i hi
      unfold tileSteps
      by_cases h1 : i = r
      · subst h1
        rw [if_pos rfl, List.getElem?_set_self (by simp [hlen, hl]; exact hi)]
      · rw [if_neg h1, List.getElem?_set_ne (fun h => h1 h.symm)]
        by_cases h2 : i = t
        · subst h2
          rw [if_pos rfl, List.getElem?_set_self (by simp [hlen, hl]; exact hi)]
        · rw [if_neg h2, List.getElem?_set_ne (fun h => h2 h.symm), hidx hbt i (by rw [hl]; exact hi),
            if_pos ⟨by omega, by rw [hvs.1]; omega, h2, h1⟩]
    have hcor := tileCorner_eq hvs (tileSteps q n m t r p) (by simp [hlen, hl]) hk
    unfold plotTile
    simp only [bind, Except.bind, pure, Except.pure, hcor, tileVertices_eq i1 i2, real_abs, real_add, real_mul, dot_eq i1 i2]
    refine ⟨fun h => absurd h hz, ?_, ?_, ?_⟩
    · intro e' he'
      split at he'
      · rename_i hpl
        split at hpl
        · split at hpl
          · rename_i hse
            simp only [Except.error.injEq] at he' hpl
            subst he' hpl
            exact tileSegs_error hse
          · exact absurd hpl (by simp)
        · exact absurd hpl (by simp)
      · exact absurd he' (by simp)
    · intro e' _ he'
      split at he'
      · rename_i hpl
        split at hpl
        · split at hpl
          · rename_i hse
            simp only [Except.error.injEq] at he' hpl
            subst he' hpl
            exact ⟨_, v1, v2, i1, i2, hse⟩
          · exact absurd hpl (by simp)
        · exact absurd hpl (by simp)
      · exact absurd he' (by simp)
    · intro st' hst
      split at hst
      · exact absurd hst (by simp)
      rename_i calls hpl
      simp only [Except.ok.injEq] at hst
      subst hst
      refine ⟨by simp [hlen, hl], Or.inl ?_⟩
      split at hpl
      · rename_i hacc
        split at hpl
        · exact absurd hpl (by simp)
        rename_i segs hse
        simp only [Except.ok.injEq] at hpl
        subst hpl
        refine ⟨_, ⟨p, v1, v2, segs, hins, i1, i2, hz, rfl, fun _ => hse, fun h => ?_⟩, by simp⟩
        dsimp only at h
        rw [hacc] at h
        exact absurd h (by simp)
      · rename_i hacc
        simp only [Except.ok.injEq] at hpl
        subst hpl
        refine ⟨_, ⟨p, v1, v2, [], hins, i1, i2, hz, rfl, fun h => absurd h hacc, fun _ => rfl⟩, by simp⟩
  · rw [if_neg hbt]
    refine ⟨fun h => absurd h hz, by intro e h; exact absurd h (by simp), by intro e _ h; exact absurd h (by simp), ?_⟩
    intro st' hst
    simp only [Except.ok.injEq] at hst
    subst hst
    refine ⟨by rw [← hl]; exact hlen, Or.inr ⟨?_, rfl⟩⟩
    rintro ⟨p', hp'⟩
    have : p' = p := (hcross p').mp ⟨hp'.1, hp'.2.1⟩
    subst this
    exact hbt (hin.mpr hp')

/-! ## All the tiles -/

/-- Everything plotted for a list of places, after what has been plotted before. -/
inductive Tiling (q : Quasi ℝ) : List (Call ℝ) → List ((Nat × Nat) × (Nat × Nat)) → List (Call ℝ) → Prop
  | nil (a) : Tiling q a [] a
  | skip {a b c cs} : ¬ Drawn q c → Tiling q a cs b → Tiling q a (c :: cs) b
  | draw {a b c cs g} : Group q a c g → Tiling q (a ++ g) cs b → Tiling q a (c :: cs) b

theorem fold_spec {q : Quasi ℝ} {vs : List (QVec ℝ)} (hvs : IsVecs q vs) : ∀ (l : List ((Nat × Nat) × (Nat × Nat))),
    (∀ c ∈ l, OnGrid q c) → ∀ st : QState ℝ, st.index.length = q.symmetry →
    (∀ st', l.foldlM (quasiStep q vs) st = .ok st' → Tiling q st.calls l st'.calls ∧
      ∀ c ∈ l, Real.sin (gridAngle q c.2.2 - gridAngle q c.2.1) ≠ 0) ∧
    (∀ e, l.foldlM (quasiStep q vs) st = .error e → e = .zeroDivision ∧
      ((∀ c ∈ l, Real.sin (gridAngle q c.2.2 - gridAngle q c.2.1) ≠ 0) → ∃ c ∈ l, ∃ p v1 v2, IsVec q c.2.1 v1 ∧ IsVec q c.2.2 v2 ∧
        tileSegs q p v1 v2 = .error e)) := by
  intro l
  induction l with
  | nil =>
    intro _ st _
    simp only [List.foldlM_nil]
    refine ⟨?_, by intro e h; exact absurd h (by simp [pure, Except.pure])⟩
    intro st' h
    simp only [pure, Except.pure, Except.ok.injEq] at h
    subst h
    exact ⟨.nil _, by simp⟩
  | cons c l ih =>
    intro hg st hl
    obtain ⟨s0, s1, s2, s3⟩ := step_spec hvs (hg c (by simp)) st hl
    simp only [List.foldlM_cons, bind, Except.bind]
    cases hq : quasiStep q vs st c with
    | error e =>
      refine ⟨by intro st' h; exact absurd h (by simp), ?_⟩
      intro e' h
      simp only [Except.error.injEq] at h
      subst h
      refine ⟨s1 e hq, fun hall => ⟨c, by simp, ?_⟩⟩
      exact s2 e (hall c (by simp)) hq
    | ok st1 =>
      dsimp only
      obtain ⟨hl1, hcase⟩ := s3 st1 hq
      obtain ⟨i1, i2⟩ := ih (fun c hc => hg c (List.mem_cons_of_mem _ hc)) st1 hl1
      constructor
      · intro st' h
        obtain ⟨t1, t2⟩ := i1 st' h
        constructor
        · rcases hcase with ⟨g, hG, he⟩ | ⟨hnd, he⟩
          · exact .draw hG (he ▸ t1)
          · exact .skip hnd (he ▸ t1)
        · intro c' hc'
          rcases List.mem_cons.mp hc' with rfl | hc'
          · intro hz
            rw [s0 hz] at hq
            exact absurd hq (by simp)
          · exact t2 c' hc'
      · intro e h
        obtain ⟨t1, t2⟩ := i2 e h
        refine ⟨t1, fun hall => ?_⟩
        obtain ⟨c', hc', h'⟩ := t2 (fun c hc => hall c (List.mem_cons_of_mem _ hc))
        exact ⟨c', List.mem_cons_of_mem _ hc', h'⟩

/-! ## The order of the crossings -/

/-- The rings of the loop. -/
theorem ringsFrom_spec (maxline : Int) : ∀ (fuel j : Nat) (l : List (ℝ × ℝ)), ringsFrom maxline fuel (0.4 * (j : ℝ)) = some l →
    (maxline : ℝ) < 0.4 * ((j + l.length : Nat) : ℝ) ∧
      l = (List.range' j l.length).map fun i : Nat => ((0.4 * (i : ℝ)) * (0.4 * (i : ℝ)), (0.4 * ((i : ℝ) + 1)) * (0.4 * ((i : ℝ) + 1))) := by
  intro fuel
  induction fuel with
  | zero => intro j l h; simp [ringsFrom] at h
  | succ fuel ih =>
    intro j l h
    unfold ringsFrom at h
    by_cases hle : (0.4 * (j : ℝ)) ≤ (maxline : ℝ)
    · simp only [real_le, real_ofInt, hle, decide_true, if_true, real_add, real_mul] at h
      have e : 0.4 * (j : ℝ) + lit 4 1 = 0.4 * ((j + 1 : Nat) : ℝ) := by
        rw [real_lit]; push_cast; norm_num; ring
      rw [e] at h
      split at h
      · exact absurd h (by simp)
      rename_i l' hl'
      simp only [Option.some.injEq] at h
      obtain ⟨a, b⟩ := ih (j + 1) l' hl'
      subst h
      refine ⟨?_, ?_⟩
      · rw [List.length_cons, show j + (l'.length + 1) = j + 1 + l'.length by omega]; exact a
      · rw [List.length_cons, List.range'_succ, List.map_cons]
        rw [← b]
        push_cast
        rfl
    · simp only [real_le, real_ofInt, hle, decide_false, Bool.false_eq_true, if_false, Option.some.injEq] at h
      subst h
      simp at hle ⊢
      exact hle

theorem ringsFrom_total (maxline : Int) : ∀ (fuel j : Nat), (maxline : ℝ) < 0.4 * ((j + fuel : Nat) : ℝ) →
    ∃ l, ringsFrom maxline (fuel + 1) (0.4 * (j : ℝ)) = some l := by
  intro fuel
  induction fuel with
  | zero =>
    intro j h
    refine ⟨[], ?_⟩
    unfold ringsFrom
    simp only [Nat.add_zero] at h
    simp [h]
  | succ fuel ih =>
    intro j h
    obtain ⟨l, hl⟩ := ih (j + 1) (by rw [show j + 1 + fuel = j + (fuel + 1) by omega]; exact h)
    unfold ringsFrom
    by_cases hle : (0.4 * (j : ℝ)) ≤ (maxline : ℝ)
    · have e : 0.4 * (j : ℝ) + lit 4 1 = 0.4 * ((j + 1 : Nat) : ℝ) := by
        rw [real_lit]; push_cast; norm_num; ring
      simp only [real_le, real_ofInt, hle, decide_true, if_true, real_add, e, hl]
      exact ⟨_, rfl⟩
    · simp [hle]

end Verif.Ext
