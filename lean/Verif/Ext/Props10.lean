import Verif.Ext.Props9

/-!
# C148: the tiles and the cells of the grid
-/

set_option linter.unusedSectionVars false

namespace Verif.Ext
open Verif PyFloat PyTrig Geom

/-- The point that stands for the cell of the grid around a point that is on no line: as many steps in each direction as
the number of the line last passed. -/
noncomputable def cellPoint (q : Quasi ℝ) (x : P ℝ) : P ℝ := stepsTo q fun i => ⌊place q i x⌋

/-- No third line of the grid passes through a crossing. -/
def Simple (q : Quasi ℝ) (t r : Nat) (p : P ℝ) : Prop := ∀ i, i < q.symmetry → i ≠ t → i ≠ r → ∀ k : Int, place q i p ≠ k

/-- A tile is the picture of the four cells that meet at a crossing: near the crossing, the points before both lines belong to the
first corner, those past the first line to the second, those past both to the third and those past the second line to the fourth. -/
def PicturesCells (q : Quasi ℝ) (c : (Nat × Nat) × (Nat × Nat)) (vs : List (P ℝ)) : Prop :=
  ∃ p : P ℝ, place q c.2.1 p = c.1.1 ∧ place q c.2.2 p = c.1.2 ∧ (Simple q c.2.1 c.2.2 p → ∃ ε > 0, ∀ x : P ℝ, |x.x - p.x| < ε → |x.y - p.y| < ε →
    (place q c.2.1 x < c.1.1 → place q c.2.2 x < c.1.2 → vs[0]? = some (cellPoint q x)) ∧
    ((c.1.1 : ℝ) < place q c.2.1 x → place q c.2.2 x < c.1.2 → vs[1]? = some (cellPoint q x)) ∧
    ((c.1.1 : ℝ) < place q c.2.1 x → (c.1.2 : ℝ) < place q c.2.2 x → vs[2]? = some (cellPoint q x)) ∧
    (place q c.2.1 x < c.1.1 → (c.1.2 : ℝ) < place q c.2.2 x → vs[3]? = some (cellPoint q x)))

/-- Changing the numbers of steps in two directions. -/
theorem stepsTo_change (q : Quasi ℝ) {t r : Nat} (ht : t < q.symmetry) (hr : r < q.symmetry) (htr : t ≠ r) (k k' : Nat → Int)
    (h : ∀ i, i < q.symmetry → i ≠ t → i ≠ r → k' i = k i) :
    stepsTo q k' = ⟨(stepsTo q k).x + Real.cos (gridAngle q t) * (k' t - k t) + Real.cos (gridAngle q r) * (k' r - k r),
      (stepsTo q k).y + Real.sin (gridAngle q t) * (k' t - k t) + Real.sin (gridAngle q r) * (k' r - k r)⟩ := by
  have key : ∀ f : Nat → ℝ, ∑ i ∈ Finset.range q.symmetry, f i * (k' i : ℝ) =
      ∑ i ∈ Finset.range q.symmetry, f i * (k i : ℝ) + f t * (k' t - k t) + f r * (k' r - k r) := by
    intro f
    have := Finset.sum_eq_add_of_mem (s := Finset.range q.symmetry) (f := fun i => f i * ((k' i : ℝ) - k i)) t r
      (Finset.mem_range.mpr ht) (Finset.mem_range.mpr hr) htr (by
        rintro i hi ⟨h1, h2⟩
        rw [h i (Finset.mem_range.mp hi) h1 h2]
        ring)
    simp only [mul_sub, Finset.sum_sub_distrib] at this
    linarith
  unfold stepsTo
  dsimp only
  rw [key, key]

theorem place_lipschitz (q : Quasi ℝ) (i : Nat) (x p : P ℝ) : |place q i x - place q i p| ≤ |x.x - p.x| + |x.y - p.y| := by
  have e : place q i x - place q i p = (x.x - p.x) * Real.sin (gridAngle q i) - (x.y - p.y) * Real.cos (gridAngle q i) := by
    unfold place; ring
  rw [e]
  refine (abs_sub _ _).trans ?_
  rw [abs_mul, abs_mul]
  have h1 := Real.abs_sin_le_one (gridAngle q i)
  have h2 := Real.abs_cos_le_one (gridAngle q i)
  nlinarith [abs_nonneg (x.x - p.x), abs_nonneg (x.y - p.y)]

/-- Around a number that is not whole the whole part does not change. -/
theorem floor_near {x : ℝ} (h : ∀ k : Int, x ≠ k) : ∃ ε > 0, ∀ y, |y - x| < ε → ⌊y⌋ = ⌊x⌋ := by
  have h1 : (⌊x⌋ : ℝ) < x := lt_of_le_of_ne (Int.floor_le x) (fun e => h _ e.symm)
  have h2 := Int.lt_floor_add_one x
  refine ⟨min (x - ⌊x⌋) (⌊x⌋ + 1 - x), lt_min (by linarith) (by linarith), ?_⟩
  intro y hy
  have h3 := lt_of_lt_of_le hy (min_le_left _ _)
  have h4 := lt_of_lt_of_le hy (min_le_right _ _)
  rw [abs_lt] at h3 h4
  rw [Int.floor_eq_iff]
  constructor <;> linarith

theorem common_eps (f : Nat → ℝ → Prop) (hmono : ∀ i e e', 0 < e' → e' ≤ e → f i e → f i e') : ∀ n, (∀ i, i < n → ∃ e > 0, f i e) → ∃ e > 0, ∀ i, i < n → f i e := by
  intro n
  induction n with
  | zero => intro _; exact ⟨1, one_pos, by intro i hi; omega⟩
  | succ n ih =>
    intro h
    obtain ⟨e1, h1, h1'⟩ := ih (fun i hi => h i (by omega))
    obtain ⟨e2, h2, h2'⟩ := h n (by omega)
    refine ⟨min e1 e2, lt_min h1 h2, ?_⟩
    intro i hi
    by_cases hin : i = n
    · subst hin; exact hmono _ _ _ (lt_min h1 h2) (min_le_right _ _) h2'
    · exact hmono _ _ _ (lt_min h1 h2) (min_le_left _ _) (h1' i (by omega))

theorem tile_pictures {q : Quasi ℝ} {c : (Nat × Nat) × (Nat × Nat)} (hc : OnGrid q c) {vs : List (P ℝ)} (h : IsTile q c vs) : PicturesCells q c vs := by
  obtain ⟨⟨n, m⟩, ⟨t, r⟩⟩ := c
  obtain ⟨p, hin, hv⟩ := h
  obtain ⟨_, _, htr, hr⟩ := hc
  dsimp only at *
  refine ⟨p, hin.1, hin.2.1, ?_⟩
  intro hs
  dsimp only at *
  obtain ⟨e, he, hfloor⟩ := common_eps (fun i e => i ≠ t → i ≠ r → ∀ y, |y - place q i p| < e → ⌊y⌋ = ⌊place q i p⌋)
    (fun i e e' _ hle hf h1 h2 y hy => hf h1 h2 y (lt_of_lt_of_le hy hle)) q.symmetry (by
      intro i hi
      by_cases h1 : i = t
      · exact ⟨1, one_pos, fun hc => absurd h1 hc⟩
      by_cases h2 : i = r
      · exact ⟨1, one_pos, fun _ hc => absurd h2 hc⟩
      obtain ⟨e, he, hf⟩ := floor_near (hs i hi h1 h2)
      exact ⟨e, he, fun _ _ => hf⟩)
  refine ⟨min (e / 2) (1 / 2), lt_min (by linarith) (by norm_num), ?_⟩
  intro x hx hy
  have hx1 := lt_of_lt_of_le hx (min_le_left _ _)
  have hx2 := lt_of_lt_of_le hx (min_le_right _ _)
  have hy1 := lt_of_lt_of_le hy (min_le_left _ _)
  have hy2 := lt_of_lt_of_le hy (min_le_right _ _)
  have hsame : ∀ i, i < q.symmetry → i ≠ t → i ≠ r → ⌊place q i x⌋ = tileSteps q n m t r p i := by
    intro i hi h1 h2
    unfold tileSteps
    rw [if_neg h2, if_neg h1]
    exact hfloor i hi h1 h2 _ (lt_of_le_of_lt (place_lipschitz q i x p) (by linarith))
  have hT := place_lipschitz q t x p
  have hR := place_lipschitz q r x p
  rw [hin.1, abs_le] at hT
  rw [hin.2.1, abs_le] at hR
  have hcell := stepsTo_change q (show t < q.symmetry by omega) hr (by omega) (tileSteps q n m t r p) (fun i => ⌊place q i x⌋) hsame
  have kt : tileSteps q n m t r p t = (n : Int) - 1 := by unfold tileSteps; rw [if_neg (by omega), if_pos rfl]
  have kr : tileSteps q n m t r p r = (m : Int) - 1 := by unfold tileSteps; rw [if_pos rfl]
  rw [kt, kr] at hcell
  have fT0 : place q t x < n → ⌊place q t x⌋ = (n : Int) - 1 := by
    intro h; rw [Int.floor_eq_iff]; push_cast; constructor <;> linarith
  have fT1 : (n : ℝ) < place q t x → ⌊place q t x⌋ = (n : Int) := by
    intro h; rw [Int.floor_eq_iff]; push_cast; constructor <;> linarith
  have fR0 : place q r x < m → ⌊place q r x⌋ = (m : Int) - 1 := by
    intro h; rw [Int.floor_eq_iff]; push_cast; constructor <;> linarith
  have fR1 : (m : ℝ) < place q r x → ⌊place q r x⌋ = (m : Int) := by
    intro h; rw [Int.floor_eq_iff]; push_cast; constructor <;> linarith
  unfold cellPoint
  rw [hcell, hv]
  unfold rhombus
  refine ⟨?_, ?_, ?_, ?_⟩
  · intro a b
    rw [fT0 a, fR0 b]
    simp
  · intro a b
    rw [fT1 a, fR0 b]
    simp
  · intro a b
    rw [fT1 a, fR1 b]
    simp
  · intro a b
    rw [fT0 a, fR1 b]
    simp

/-- C148 (cells): in a finished run the tiles drawn are, one for one and in order, the pictures of the crossings of C147:
the corners of each tile stand for the four cells of the grid that meet at its crossing, provided no third line passes through it. -/
theorem C148_cells {q : Quasi ℝ} {fuel : Nat} {calls : List (Call ℝ)} (h : quasi q fuel = some (.ok calls)) :
    ∃ l : List ((Nat × Nat) × (Nat × Nat)), l.Nodup ∧ (∀ c, c ∈ l ↔ OnGrid q c ∧ Drawn q c) ∧
      List.Forall₂ (PicturesCells q) l (polygonsOf calls) := by
  obtain ⟨l, h1, h2, -, h4⟩ := C147_tiles h
  refine ⟨l, h1, h2, ?_⟩
  have hmem : ∀ c ∈ l, OnGrid q c := fun c hc => ((h2 c).mp hc).1
  clear h1 h2
  generalize polygonsOf calls = pcs at h4
  induction h4 with
  | nil => exact .nil
  | cons hab _ ih =>
    exact .cons (tile_pictures (hmem _ (by simp)) hab) (ih (fun c hc => hmem c (List.mem_cons_of_mem _ hc)))

/-! ## Neighbouring tiles -/

/-- A crossing on line `n` of direction `t`, with line `m` of direction `s`. -/
def CrossesAt (c : (Nat × Nat) × (Nat × Nat)) (t n s m : Nat) : Prop := c = ((n, m), (t, s)) ∨ c = ((m, n), (s, t))

/-- Two crossings on one line have nothing between them: no line of another direction passes strictly between. -/
def NothingBetween (q : Quasi ℝ) (t : Nat) (p p' : P ℝ) : Prop :=
  ∀ i, i < q.symmetry → i ≠ t → ∀ k : Int, ¬ (place q i p < k ∧ k < place q i p') ∧ ¬ (place q i p' < k ∧ k < place q i p)

/-- The corners of a tile: the numbers of steps may be one more in each of the two directions. -/
theorem mem_tile {q : Quasi ℝ} {n m t r : Nat} {p : P ℝ} (ht : t < q.symmetry) (hr : r < q.symmetry) (htr : t ≠ r)
    {k : Nat → Int} (kt : k t = (n : Int) - 1 ∨ k t = n) (kr : k r = (m : Int) - 1 ∨ k r = m)
    (h : ∀ i, i < q.symmetry → i ≠ t → i ≠ r → k i = ⌊place q i p⌋) :
    stepsTo q k ∈ rhombus (stepsTo q (tileSteps q n m t r p)) (gridAngle q t) (gridAngle q r) := by
  have hcell := stepsTo_change q ht hr htr (tileSteps q n m t r p) k (by
    intro i hi h1 h2
    rw [h i hi h1 h2]
    unfold tileSteps
    rw [if_neg h2, if_neg h1])
  have et : tileSteps q n m t r p t = (n : Int) - 1 := by unfold tileSteps; rw [if_neg htr, if_pos rfl]
  have er : tileSteps q n m t r p r = (m : Int) - 1 := by unfold tileSteps; rw [if_pos rfl]
  rw [et, er] at hcell
  rw [hcell]
  unfold rhombus
  rcases kt with a | a <;> rcases kr with b | b <;> rw [a, b] <;> simp

theorem tile_side {q : Quasi ℝ} {c : (Nat × Nat) × (Nat × Nat)} (hc : OnGrid q c) {vs : List (P ℝ)} (h : IsTile q c vs) {t n s m : Nat}
    (hcr : CrossesAt c t n s m) : ∃ p, place q t p = n ∧ place q s p = m ∧ t < q.symmetry ∧ s < q.symmetry ∧ t ≠ s ∧
      ∀ k : Nat → Int, (k t = (n : Int) - 1 ∨ k t = n) → (k s = (m : Int) - 1 ∨ k s = m) →
        (∀ i, i < q.symmetry → i ≠ t → i ≠ s → k i = ⌊place q i p⌋) → stepsTo q k ∈ vs := by
  obtain ⟨_, _, htr, hr⟩ := hc
  obtain ⟨p, hin, hv⟩ := h
  rcases hcr with rfl | rfl
  · dsimp only at *
    refine ⟨p, hin.1, hin.2.1, by omega, by omega, by omega, ?_⟩
    intro k h1 h2 h3
    rw [hv]
    exact mem_tile (by omega) (by omega) (by omega) h1 h2 h3
  · dsimp only at *
    refine ⟨p, hin.2.1, hin.1, by omega, by omega, by omega, ?_⟩
    intro k h1 h2 h3
    rw [hv]
    exact mem_tile (by omega) (by omega) (by omega) h2 h1 (fun i hi a b => h3 i hi b a)

theorem floor_beside {x y : ℝ} {k : Int} (hy : y = k) (hx : ∀ j : Int, x ≠ j) (h : ∀ j : Int, ¬ (x < j ∧ j < y) ∧ ¬ (y < j ∧ j < x)) :
    ⌊x⌋ = k - 1 ∨ ⌊x⌋ = k := by
  have h1 : (⌊x⌋ : ℝ) < x := lt_of_le_of_ne (Int.floor_le x) (fun e => hx _ e.symm)
  have h2 := Int.lt_floor_add_one x
  rcases lt_or_gt_of_ne (show x ≠ y by rw [hy]; exact hx k) with hlt | hgt
  · left
    have h3 := (h (⌊x⌋ + 1)).1
    have : ¬ ((⌊x⌋ + 1 : Int) : ℝ) < y := fun hc => h3 ⟨by push_cast; linarith, hc⟩
    rw [hy] at this hlt
    have a : ¬ (⌊x⌋ + 1 < k) := by exact_mod_cast this
    have b : ⌊x⌋ < k := by exact_mod_cast lt_trans h1 hlt
    omega
  · right
    have h3 := (h ⌊x⌋).2
    have : ¬ y < (⌊x⌋ : ℝ) := fun hc => h3 ⟨hc, h1⟩
    rw [hy] at this hgt
    have a : ¬ (k < ⌊x⌋) := by exact_mod_cast this
    have b : (k : ℝ) < ⌊x⌋ + 1 := lt_trans hgt h2
    have b : k < ⌊x⌋ + 1 := by exact_mod_cast b
    omega

theorem floor_between {x y : ℝ} (hx : ∀ j : Int, x ≠ j) (hy : ∀ j : Int, y ≠ j) (h : ∀ j : Int, ¬ (x < j ∧ j < y) ∧ ¬ (y < j ∧ j < x)) : ⌊x⌋ = ⌊y⌋ := by
  have a1 : (⌊x⌋ : ℝ) < x := lt_of_le_of_ne (Int.floor_le x) (fun e => hx _ e.symm)
  have a2 := Int.lt_floor_add_one x
  have b1 : (⌊y⌋ : ℝ) < y := lt_of_le_of_ne (Int.floor_le y) (fun e => hy _ e.symm)
  have b2 := Int.lt_floor_add_one y
  rcases lt_trichotomy ⌊x⌋ ⌊y⌋ with hlt | he | hgt
  · exfalso
    have hlt' : ⌊x⌋ + 1 ≤ ⌊y⌋ := hlt
    have : ((⌊x⌋ + 1 : Int) : ℝ) ≤ ⌊y⌋ := by exact_mod_cast hlt'
    push_cast at this
    exact (h ⌊y⌋).1 ⟨by linarith, b1⟩
  · exact he
  · exfalso
    have hlt' : ⌊y⌋ + 1 ≤ ⌊x⌋ := hgt
    have : ((⌊y⌋ + 1 : Int) : ℝ) ≤ ⌊x⌋ := by exact_mod_cast hlt'
    push_cast at this
    exact (h ⌊x⌋).2 ⟨by linarith, a1⟩

/-- C148 (neighbours): in a finished run, when two crossings on one line of the grid have nothing between them and no
third line passes through either, and both get a tile, the two tiles share a side: two common corners one step apart in the direction of that line. -/
theorem C148_neighbours {q : Quasi ℝ} {fuel : Nat} {calls : List (Call ℝ)} (h : quasi q fuel = some (.ok calls))
    {c c' : (Nat × Nat) × (Nat × Nat)} (hg : OnGrid q c) (hg' : OnGrid q c') {t n s m s' m' : Nat}
    (hc : CrossesAt c t n s m) (hc' : CrossesAt c' t n s' m') {p p' : P ℝ}
    (hp : Inside q c.1.1 c.1.2 c.2.1 c.2.2 p) (hp' : Inside q c'.1.1 c'.1.2 c'.2.1 c'.2.2 p')
    (hne : (s, m) ≠ (s', m')) (hs : Simple q t s p) (hs' : Simple q t s' p') (hb : NothingBetween q t p p') :
    ∃ vs vs' a b, vs ∈ polygonsOf calls ∧ vs' ∈ polygonsOf calls ∧ IsTile q c vs ∧ IsTile q c' vs' ∧
      (a ∈ vs ∧ b ∈ vs) ∧ (a ∈ vs' ∧ b ∈ vs') ∧ b = ⟨a.x + Real.cos (gridAngle q t), a.y + Real.sin (gridAngle q t)⟩ := by
  obtain ⟨l, -, h2, -, h4⟩ := C147_tiles h
  have get : ∀ c, OnGrid q c → Drawn q c → ∃ vs ∈ polygonsOf calls, IsTile q c vs := by
    intro c h1 h3
    have hm := (h2 c).mpr ⟨h1, h3⟩
    clear h2
    revert hm
    generalize polygonsOf calls = pcs at h4
    induction h4 with
    | nil => intro hm; simp at hm
    | cons hab _ ih =>
      intro hm
      rcases List.mem_cons.mp hm with rfl | hm
      · exact ⟨_, by simp, hab⟩
      · obtain ⟨vs, h5, h6⟩ := ih hm
        exact ⟨vs, List.mem_cons_of_mem _ h5, h6⟩
  obtain ⟨vs, hvs, htile⟩ := get c hg ⟨p, hp⟩
  obtain ⟨vs', hvs', htile'⟩ := get c' hg' ⟨p', hp'⟩
  -- the crossing points are unique
  obtain ⟨l0, _, m0, _, _, z0⟩ := quasi_spec h
  have uniq : ∀ {c}, OnGrid q c → ∀ {a b : P ℝ}, place q c.2.1 a = c.1.1 → place q c.2.2 a = c.1.2 → place q c.2.1 b = c.1.1 →
      place q c.2.2 b = c.1.2 → a = b := by
    intro c hc a b ha1 ha2 hb1 hb2
    have hz := z0 c ((m0 c).mpr hc)
    rw [Real.sin_sub] at hz
    have e1 : (a.x - b.x) * Real.sin (gridAngle q c.2.1) - (a.y - b.y) * Real.cos (gridAngle q c.2.1) = 0 := by
      have := ha1.trans hb1.symm
      unfold place at this
      linear_combination this
    have e2 : (a.x - b.x) * Real.sin (gridAngle q c.2.2) - (a.y - b.y) * Real.cos (gridAngle q c.2.2) = 0 := by
      have := ha2.trans hb2.symm
      unfold place at this
      linear_combination this
    have hx : a.x - b.x = 0 := by
      have : (a.x - b.x) * (Real.sin (gridAngle q c.2.2) * Real.cos (gridAngle q c.2.1) - Real.cos (gridAngle q c.2.2) * Real.sin (gridAngle q c.2.1)) = 0 := by
        linear_combination Real.cos (gridAngle q c.2.1) * e2 - Real.cos (gridAngle q c.2.2) * e1
      exact (mul_eq_zero.mp this).resolve_right hz
    have hy : a.y - b.y = 0 := by
      have : (a.y - b.y) * (Real.sin (gridAngle q c.2.2) * Real.cos (gridAngle q c.2.1) - Real.cos (gridAngle q c.2.2) * Real.sin (gridAngle q c.2.1)) = 0 := by
        linear_combination Real.sin (gridAngle q c.2.1) * e2 - Real.sin (gridAngle q c.2.2) * e1
      exact (mul_eq_zero.mp this).resolve_right hz
    cases a; cases b
    simp only [P.mk.injEq] at *
    constructor <;> linarith
  obtain ⟨x, x1, x2, ht, hsS, hts, hside⟩ := tile_side hg htile hc
  obtain ⟨x', x1', x2', _, hsS', hts', hside'⟩ := tile_side hg' htile' hc'
  have ex : x = p := by
    rcases hc with rfl | rfl
    · exact uniq hg x1 x2 hp.1 hp.2.1
    · exact uniq hg x2 x1 hp.1 hp.2.1
  have ex' : x' = p' := by
    rcases hc' with rfl | rfl
    · exact uniq hg' x1' x2' hp'.1 hp'.2.1
    · exact uniq hg' x2' x1' hp'.1 hp'.2.1
  subst ex ex'
  -- numbers of steps in the cell between the two crossings
  have hk : ∃ k : Nat → Int, (k s = (m : Int) - 1 ∨ k s = m) ∧ (k s' = (m' : Int) - 1 ∨ k s' = m') ∧
      (∀ i, i < q.symmetry → i ≠ t → i ≠ s → k i = ⌊place q i x⌋) ∧ (∀ i, i < q.symmetry → i ≠ t → i ≠ s' → k i = ⌊place q i x'⌋) := by
    by_cases hss : s = s'
    · subst hss
      have hmm : m ≠ m' := fun e => hne (by rw [e])
      have hbs := hb s hsS (Ne.symm hts)
      rw [x2, x2'] at hbs
      have key : (m : Int) = m' - 1 ∨ (m : Int) = m' + 1 := by
        rcases Nat.lt_or_gt_of_ne hmm with hlt | hgt
        · left
          by_contra hcn
          have b := (hbs ((m : Int) + 1)).1
          apply b
          constructor
          · push_cast; linarith
          · have : (m : Int) + 1 < m' := by omega
            exact_mod_cast this
        · right
          by_contra hcn
          have b := (hbs ((m' : Int) + 1)).2
          apply b
          constructor
          · push_cast; linarith
          · have : (m' : Int) + 1 < m := by omega
            exact_mod_cast this
      refine ⟨fun i => if i = s then (if (m : Int) = m' - 1 then (m : Int) else m') else ⌊place q i x⌋, ?_, ?_, ?_, ?_⟩
      · simp only [if_true]; split <;> omega
      · simp only [if_true]; split <;> omega
      · intro i _ _ h2; simp only [if_neg h2]
      · intro i hi h1 h2
        simp only [if_neg h2]
        exact floor_between (hs i hi h1 h2) (hs' i hi h1 h2) (hb i hi h1)
    · have f1 := floor_beside (k := (m' : Int)) (by rw [x2']; norm_cast) (hs s' hsS' (Ne.symm hts') (fun e => hss e.symm)) (hb s' hsS' (Ne.symm hts'))
      have hb2 : ∀ j : Int, ¬ (place q s x' < j ∧ j < place q s x) ∧ ¬ (place q s x < j ∧ j < place q s x') :=
        fun j => ⟨(hb s hsS (Ne.symm hts) j).2, (hb s hsS (Ne.symm hts) j).1⟩
      have f2 := floor_beside (k := (m : Int)) (by rw [x2]; norm_cast) (hs' s hsS (Ne.symm hts) hss) hb2
      refine ⟨fun i => if i = s then ⌊place q s x'⌋ else ⌊place q i x⌋, ?_, ?_, ?_, ?_⟩
      · simp only [if_true]; exact f2
      · simp only [if_neg (fun e : s' = s => hss e.symm)]; exact f1
      · intro i _ _ h2; simp only [if_neg h2]
      · intro i hi h1 h2
        by_cases his : i = s
        · subst his; simp only [if_true]
        · simp only [if_neg his]
          exact floor_between (hs i hi h1 his) (hs' i hi h1 h2) (hb i hi h1)
  obtain ⟨k, k1, k2, k3, k4⟩ := hk
  have upd : ∀ (v : Int) (i : Nat), i ≠ t → Function.update k t v i = k i := fun v i hi => Function.update_of_ne hi _ _
  have mem1 : ∀ v : Int, (v = (n : Int) - 1 ∨ v = n) → stepsTo q (Function.update k t v) ∈ vs := by
    intro v hv
    apply hside
    · rw [Function.update_self]; exact hv
    · rw [upd v s (Ne.symm hts)]; exact k1
    · intro i hi h1 h2; rw [upd v i h1]; exact k3 i hi h1 h2
  have mem2 : ∀ v : Int, (v = (n : Int) - 1 ∨ v = n) → stepsTo q (Function.update k t v) ∈ vs' := by
    intro v hv
    apply hside'
    · rw [Function.update_self]; exact hv
    · rw [upd v s' (Ne.symm hts')]; exact k2
    · intro i hi h1 h2; rw [upd v i h1]; exact k4 i hi h1 h2
  refine ⟨vs, vs', stepsTo q (Function.update k t ((n : Int) - 1)), stepsTo q (Function.update k t (n : Int)), hvs, hvs', htile, htile',
    ⟨mem1 _ (Or.inl rfl), mem1 _ (Or.inr rfl)⟩, ⟨mem2 _ (Or.inl rfl), mem2 _ (Or.inr rfl)⟩, ?_⟩
  rw [stepsTo_change q ht hsS hts (Function.update k t ((n : Int) - 1)) (Function.update k t (n : Int)) (by
    intro i _ h1 _; rw [upd _ i h1, upd _ i h1])]
  rw [upd _ s (Ne.symm hts), upd _ s (Ne.symm hts), Function.update_self, Function.update_self]
  simp


/-! ## A concrete pair of neighbours -/

/-- Symmetry 3, seven lines in each direction, no offsets: no three lines meet. -/
noncomputable def seven : Quasi ℝ := { tiny with numlines := 7 }

theorem seven_place0 (p : P ℝ) : place seven 0 p = 7 / 2 - p.y := by
  have h : gridAngle seven 0 = 0 := by unfold gridAngle seven tiny; norm_num
  unfold place
  rw [h]
  unfold seven tiny
  norm_num
  ring

theorem seven_place1 (p : P ℝ) : place seven 1 p = p.x * (Real.sqrt 3 / 2) + p.y / 2 + 7 / 2 := by
  have h : gridAngle seven 1 = Real.pi - Real.pi / 3 := by unfold gridAngle seven tiny; norm_num; ring
  unfold place
  rw [h, Real.sin_pi_sub, Real.cos_pi_sub, Real.sin_pi_div_three, Real.cos_pi_div_three]
  unfold seven tiny
  norm_num
  ring

theorem seven_place2 (p : P ℝ) : place seven 2 p = -(p.x * (Real.sqrt 3 / 2)) + p.y / 2 + 7 / 2 := by
  have h : gridAngle seven 2 = Real.pi / 3 + Real.pi := by unfold gridAngle seven tiny; norm_num; ring
  unfold place
  rw [h, Real.sin_add_pi, Real.cos_add_pi, Real.sin_pi_div_three, Real.cos_pi_div_three]
  unfold seven tiny
  norm_num
  ring

theorem half_not_int (k : Int) : (7 / 2 : ℝ) ≠ k := by
  intro h
  have : (7 : ℝ) = ((2 * k : Int) : ℝ) := by push_cast; linarith
  have : (7 : Int) = 2 * k := by exact_mod_cast this
  omega

/-- The hypotheses of C148 are met: line 3 of direction 0 crosses line 4 of direction 1 and line 4 of direction 2 with nothing between. -/
example : ∃ calls vs vs' a b, quasi seven 22 = some (.ok calls) ∧ vs ∈ polygonsOf calls ∧ vs' ∈ polygonsOf calls ∧
    IsTile seven ((3, 4), (0, 1)) vs ∧ IsTile seven ((3, 4), (0, 2)) vs' ∧ (a ∈ vs ∧ b ∈ vs) ∧ (a ∈ vs' ∧ b ∈ vs') ∧
    b = ⟨a.x + Real.cos (gridAngle seven 0), a.y + Real.sin (gridAngle seven 0)⟩ := by
  obtain ⟨calls, h⟩ := C147_odd seven rfl 21 (by decide)
  have h3 : Real.sqrt 3 * Real.sqrt 3 = 3 := Real.mul_self_sqrt (by norm_num)
  have hx : (Real.sqrt 3 / 6) * (Real.sqrt 3 / 2) = 1 / 4 := by linear_combination h3 / 12
  have hx' : (-(Real.sqrt 3 / 6)) * (Real.sqrt 3 / 2) = -1 / 4 := by linear_combination -h3 / 12
  let p : P ℝ := ⟨Real.sqrt 3 / 6, 1 / 2⟩
  let p' : P ℝ := ⟨-(Real.sqrt 3 / 6), 1 / 2⟩
  have a0 : place seven 0 p = 3 := by rw [seven_place0]; norm_num [p]
  have a1 : place seven 1 p = 4 := by rw [seven_place1]; simp only [p]; rw [hx]; norm_num
  have a2 : place seven 2 p = 7 / 2 := by rw [seven_place2]; simp only [p]; rw [hx]; norm_num
  have b0 : place seven 0 p' = 3 := by rw [seven_place0]; norm_num [p']
  have b1 : place seven 1 p' = 7 / 2 := by rw [seven_place1]; simp only [p']; rw [hx']; norm_num
  have b2 : place seven 2 p' = 4 := by rw [seven_place2]; simp only [p']; rw [hx']; norm_num
  have hS : seven.symmetry = 3 := rfl
  have hN : seven.numlines = 7 := rfl
  have hc : ∀ i, i < 3 → i = 0 ∨ i = 1 ∨ i = 2 := by intro i; omega
  obtain ⟨vs, vs', a, b, r⟩ := C148_neighbours (q := seven) h (c := ((3, 4), (0, 1))) (c' := ((3, 4), (0, 2))) (t := 0) (n := 3)
    (s := 1) (m := 4) (s' := 2) (m' := 4) (p := p) (p' := p')
    ⟨⟨by decide, by decide⟩, ⟨by decide, by decide⟩, by decide, by decide⟩
    ⟨⟨by decide, by decide⟩, ⟨by decide, by decide⟩, by decide, by decide⟩
    (Or.inl rfl) (Or.inl rfl)
    ⟨by simpa using a0, by simpa using a1, by
      intro i hi h1 h2
      rw [hS] at hi
      rcases hc i hi with rfl | rfl | rfl
      · exact absurd rfl h1
      · exact absurd rfl h2
      · rw [a2, hN]; norm_num⟩
    ⟨by simpa using b0, by simpa using b2, by
      intro i hi h1 h2
      rw [hS] at hi
      rcases hc i hi with rfl | rfl | rfl
      · exact absurd rfl h1
      · rw [b1, hN]; norm_num
      · exact absurd rfl h2⟩
    (by decide)
    (by
      intro i hi h1 h2
      rw [hS] at hi
      rcases hc i hi with rfl | rfl | rfl
      · exact absurd rfl h1
      · exact absurd rfl h2
      · rw [a2]; exact half_not_int)
    (by
      intro i hi h1 h2
      rw [hS] at hi
      rcases hc i hi with rfl | rfl | rfl
      · exact absurd rfl h1
      · rw [b1]; exact half_not_int
      · exact absurd rfl h2)
    (by
      intro i hi h1 k
      have key : ∀ k : Int, ¬ ((7 / 2 : ℝ) < k ∧ (k : ℝ) < 4) := by
        rintro k ⟨u, v⟩
        have v : k < 4 := by exact_mod_cast v
        have : (k : ℝ) ≤ 3 := by exact_mod_cast (by omega : k ≤ 3)
        linarith
      rw [hS] at hi
      rcases hc i hi with rfl | rfl | rfl
      · exact absurd rfl h1
      · rw [a1, b1]
        exact ⟨fun hk => by linarith [hk.1, hk.2], key k⟩
      · rw [a2, b2]
        exact ⟨key k, fun hk => by linarith [hk.1, hk.2]⟩)
  exact ⟨calls, vs, vs', a, b, h, r⟩

end Verif.Ext
