import Verif.Ext.Props8
import Mathlib.Analysis.SpecialFunctions.Trigonometric.Complex
import Mathlib.Tactic.IntervalCases

/-!
# C147 (continued): when a tiling can be drawn; C148: tiles and the cells of the grid
-/

set_option linter.unusedSectionVars false

namespace Verif.Ext
open Verif PyFloat PyTrig Geom

theorem odd_cos (q : Quasi ℝ) (hodd : q.symmetry % 2 = 1) (j : Nat) : Real.cos (gridAngle q j) ≠ 0 := by
  have hS : (q.symmetry : ℝ) ≠ 0 := by
    have : q.symmetry ≠ 0 := by omega
    exact_mod_cast this
  unfold gridAngle
  rw [if_neg (by omega), zero_add]
  intro h
  obtain ⟨k, hk⟩ := Real.cos_eq_zero_iff.mp h
  have h1 : 4 * (j : ℝ) = (2 * (k : ℝ) + 1) * q.symmetry := by
    have hpi := Real.pi_ne_zero
    field_simp at hk
    linarith
  have h2 : (4 * j : ℤ) = (2 * k + 1) * q.symmetry := by exact_mod_cast h1
  have h3 : ((2 * k + 1) * (q.symmetry : ℤ)) % 2 = 1 := by
    rw [Int.mul_emod]
    have : (q.symmetry : ℤ) % 2 = 1 := by omega
    rw [this]
    omega
  omega

theorem odd_sin (q : Quasi ℝ) (hodd : q.symmetry % 2 = 1) {t r : Nat} (htr : t < r) (hr : r < q.symmetry) :
    Real.sin (gridAngle q r - gridAngle q t) ≠ 0 := by
  have hS : (q.symmetry : ℝ) ≠ 0 := by
    have : q.symmetry ≠ 0 := by omega
    exact_mod_cast this
  unfold gridAngle
  rw [if_neg (by omega), zero_add, zero_add]
  intro h
  obtain ⟨k, hk⟩ := Real.sin_eq_zero_iff.mp h
  have h1 : (k : ℝ) * q.symmetry = 2 * ((r : ℝ) - t) := by
    have hpi := Real.pi_ne_zero
    field_simp at hk
    linarith
  have h2 : k * (q.symmetry : ℤ) = 2 * ((r : ℤ) - t) := by exact_mod_cast h1
  have hk2 : k % 2 = 0 := by
    have h3 : (k * (q.symmetry : ℤ)) % 2 = 0 := by omega
    rw [Int.mul_emod] at h3
    have : (q.symmetry : ℤ) % 2 = 1 := by omega
    rw [this] at h3
    omega
  obtain ⟨k', rfl⟩ : ∃ k', k = 2 * k' := ⟨k / 2, by omega⟩
  have h4 : k' * (q.symmetry : ℤ) = (r : ℤ) - t := by linarith
  have h5 : 0 < k' := by
    by_contra hc
    have : k' * (q.symmetry : ℤ) ≤ 0 := mul_nonpos_of_nonpos_of_nonneg (by omega) (by omega)
    omega
  have : (q.symmetry : ℤ) ≤ k' * q.symmetry := by nlinarith
  omega

theorem pmax_pos {a b : ℝ} (h : 0 < a ∨ 0 < b) : pmax a b ≠ 0 := by
  unfold pmax
  simp only [real_lt]
  split
  · rename_i hl
    simp at hl
    rcases h with h | h <;> linarith
  · rename_i hl
    simp at hl
    rcases h with h | h <;> linarith

theorem mix_pos {a b c d k : ℝ} (h : a * d - b * c ≠ 0) :
    0 < (a * (1 - k) + c * k) * (a * (1 - k) + c * k) + (b * (1 - k) + d * k) * (b * (1 - k) + d * k) := by
  by_contra hc
  have h1 : a * (1 - k) + c * k = 0 := by nlinarith [sq_nonneg (a * (1 - k) + c * k), sq_nonneg (b * (1 - k) + d * k)]
  have h2 : b * (1 - k) + d * k = 0 := by nlinarith [sq_nonneg (a * (1 - k) + c * k), sq_nonneg (b * (1 - k) + d * k)]
  have h3 : k * (a * d - b * c) = 0 := by linear_combination a * h2 - b * h1
  have h4 : (1 - k) * (a * d - b * c) = 0 := by linear_combination d * h1 - c * h2
  apply h
  linarith

theorem tileSegs_total {q : Quasi ℝ} {t r : Nat} {v1 v2 : QVec ℝ} (h1 : IsVec q t v1) (h2 : IsVec q r v2)
    (hz : Real.sin (gridAngle q r - gridAngle q t) ≠ 0) (p : P ℝ) (e : PyErr) : tileSegs q p v1 v2 ≠ .error e := by
  have hdet : v1.x * v2.y - v1.y * v2.x ≠ 0 := by
    rw [Real.sin_sub, ← h1.x, ← h1.y, ← h2.x, ← h2.y] at hz
    intro hc; apply hz; linear_combination hc
  intro h
  unfold tileSegs at h
  dsimp only at h
  by_cases hs : q.segSkinny > 0 ∨ q.segFat > 0
  · rw [if_pos hs] at h
    generalize (if q.skinnyFat <. PyFloat.abs ((v1.x *. v2.x) +. (v1.y *. v2.y)) then q.segSkinny else q.segFat) = s at h
    split at h
    · unfold midSegs at h
      simp only [bind, Except.bind, pure, Except.pure] at h
      split at h
      · exact absurd h (by simp)
      split at h
      · exact absurd h (by simp)
      split at h
      · split at h <;> exact absurd h (by simp)
      split at h
      · split at h
        · rename_i hd
          unfold pdiv at hd
          split at hd
          · rename_i hb
            simp only [real_beq, real_zero, decide_eq_true_eq] at hb
            refine pmax_pos ?_ hb
            unfold segPoly distance2
            simp only [real_lt, real_zero, real_add, real_mul, real_sub]
            by_cases hdot : 0 < v1.x * v2.x + v1.y * v2.y
            · right
              rw [if_pos (by simpa using hdot)]
              have := mix_pos (a := v1.x) (b := v1.y) (c := v2.x) (d := v2.y) (k := 1 - q.ratio) hdet
              dsimp only
              ring_nf at this ⊢
              exact this
            · left
              rw [if_neg (by simpa using hdot)]
              have := mix_pos (a := v1.x) (b := v1.y) (c := v2.x) (d := v2.y) (k := q.ratio) hdet
              dsimp only
              ring_nf at this ⊢
              exact this
          · exact absurd hd (by simp)
        · exact absurd h (by simp)
      · exact absurd h (by simp)
    · exact absurd h (by simp)
  · rw [if_neg hs] at h
    exact absurd h (by simp)

theorem rings_total (N fuel : Nat) (hf : 3 * N ≤ fuel) : ∃ l, ringsFrom ((N : Int) - 1) (fuel + 1) (zero : ℝ) = some l := by
  have h0 : (zero : ℝ) = 0.4 * ((0 : Nat) : ℝ) := by simp
  rw [h0]
  apply ringsFrom_total
  have : (3 * (N : ℝ)) ≤ fuel := by exact_mod_cast hf
  have hN : (0 : ℝ) ≤ N := Nat.cast_nonneg N
  push_cast
  linarith

/-- C147 (odd symmetries): for every odd symmetry, whatever the other settings and the plotter, the run finishes without an exception. -/
theorem C147_odd (q : Quasi ℝ) (hodd : q.symmetry % 2 = 1) (fuel : Nat) (hf : 3 * q.numlines ≤ fuel) :
    ∃ calls, quasi q (fuel + 1) = some (.ok calls) := by
  unfold quasi
  have hv : ∃ vs, initVectors q = .ok vs := by
    rw [initVectors_eq q (by omega)]
    apply initFrom_total
    intro j _
    have := odd_cos q hodd j
    unfold gridAngle at this
    rwa [Nat.zero_add]
  obtain ⟨vs, hvs⟩ := hv
  obtain ⟨rings, hr⟩ := rings_total q.numlines fuel hf
  rw [hvs]
  dsimp only
  rw [hr]
  dsimp only
  have hr' : ringsFrom ((q.numlines : Int) - 1) (fuel + 1) (0 : ℝ) = some rings := by rw [← hr, real_zero]
  obtain ⟨_, b, _⟩ := places_spec q _ rings hr'
  have hfold := fold_spec (initVectors_ok hvs) (quasiPlaces q rings) (fun c hc => (b c).mp hc) ⟨List.replicate q.symmetry 0, []⟩ (by simp)
  cases hq : (quasiPlaces q rings).foldlM (quasiStep q vs) ⟨List.replicate q.symmetry 0, []⟩ with
  | ok st => exact ⟨st.calls, rfl⟩
  | error e =>
    exfalso
    obtain ⟨_, h2⟩ := hfold.2 e hq
    have hall : ∀ c ∈ quasiPlaces q rings, Real.sin (gridAngle q c.2.2 - gridAngle q c.2.1) ≠ 0 := by
      intro c hc
      have := (b c).mp hc
      exact odd_sin q hodd this.2.2.1 this.2.2.2
    obtain ⟨c, hc, p, v1, v2, i1, i2, he⟩ := h2 hall
    exact tileSegs_total i1 i2 (hall c hc) p e he

/-- C147 (even symmetries): the module says that the division by zero for even symmetries is cured by turning the
directions a little.  The opposite directions of an even symmetry are parallel however they are turned: in exact
arithmetic every even symmetry stops with a `ZeroDivisionError`, whatever the tolerance (in floating point it depends on
how the two slopes are rounded). -/
theorem C147_even_refuted (q : Quasi ℝ) (heven : q.symmetry % 2 = 0) (hN : 3 ≤ q.numlines) (fuel : Nat) (hf : 3 * q.numlines ≤ fuel) :
    quasi q (fuel + 1) = some (.error .zeroDivision) := by
  unfold quasi
  cases hv : initVectors q with
  | error e => dsimp only; rw [initVectors_error hv]
  | ok vs =>
    dsimp only
    obtain ⟨rings, hr⟩ := rings_total q.numlines fuel hf
    rw [hr]
    dsimp only
    have hS : q.symmetry ≠ 0 := by
      intro hs
      unfold initVectors pdiv at hv
      simp [bind, Except.bind, hs] at hv
    have hr' : ringsFrom ((q.numlines : Int) - 1) (fuel + 1) (0 : ℝ) = some rings := by rw [← hr, real_zero]
    obtain ⟨_, b, _⟩ := places_spec q _ rings hr'
    have hfold := fold_spec (initVectors_ok hv) (quasiPlaces q rings) (fun c hc => (b c).mp hc) ⟨List.replicate q.symmetry 0, []⟩ (by simp)
    cases hq : (quasiPlaces q rings).foldlM (quasiStep q vs) ⟨List.replicate q.symmetry 0, []⟩ with
    | error e => rw [(hfold.2 e hq).1]; rfl
    | ok st =>
      exfalso
      have hmem : (((1, 1), (0, q.symmetry / 2)) : (Nat × Nat) × (Nat × Nat)) ∈ quasiPlaces q rings := by
        rw [b]
        refine ⟨⟨?_, ?_⟩, ⟨?_, ?_⟩, ?_, ?_⟩ <;> dsimp only <;> omega
      apply (hfold.1 st hq).2 _ hmem
      dsimp only
      unfold gridAngle
      have hSr : (q.symmetry : ℝ) ≠ 0 := by exact_mod_cast hS
      have : ((q.symmetry / 2 : Nat) : ℝ) = q.symmetry / 2 := by
        rw [Nat.cast_div (by omega) (by norm_num)]; norm_num
      rw [this, if_pos heven]
      have : q.tolerance * 10 + (q.symmetry : ℝ) / 2 * (2 * Real.pi / q.symmetry) - (q.tolerance * 10 + ((0 : Nat) : ℝ) * (2 * Real.pi / q.symmetry)) = Real.pi := by
        push_cast
        field_simp
        ring
      rw [this, Real.sin_pi]

/-- A small tiling of symmetry 3 without offsets. -/
noncomputable def tiny : Quasi ℝ where
  symmetry := 3
  numlines := 6
  saltX := 0
  saltY := 0
  tolerance := 0
  ratio := 1 / 2
  skinnyFat := 1 / 5
  segSkinny := 1
  segFat := 0
  splitCross := false
  rnd := id
  accepts _ := true

theorem tiny_place (i : Nat) : place tiny i ⟨0, 0⟩ = 3 := by
  unfold place tiny
  norm_num

/-- The hypotheses of C147 are met: the small tiling is drawn and has a tile at its middle. -/
example : ∃ calls, quasi tiny 19 = some (.ok calls) ∧ polygonsOf calls ≠ [] := by
  obtain ⟨calls, h⟩ := C147_odd tiny rfl 18 (by decide)
  refine ⟨calls, h, ?_⟩
  obtain ⟨l, _, h2, _, h4⟩ := C147_tiles h
  have : (((3, 3), (0, 1)) : (Nat × Nat) × (Nat × Nat)) ∈ l := by
    rw [h2]
    refine ⟨⟨⟨by decide, by decide⟩, ⟨by decide, by decide⟩, by decide, by decide⟩, ⟨0, 0⟩, ?_⟩
    refine ⟨?_, ?_, ?_⟩
    · rw [tiny_place]; norm_num
    · rw [tiny_place]; norm_num
    · intro i _ _ _
      rw [tiny_place]
      unfold tiny
      norm_num
  intro hc
  rw [hc] at h4
  cases h4
  simp at this

end Verif.Ext
