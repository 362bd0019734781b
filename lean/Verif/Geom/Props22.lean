import Verif.Geom.Props21

/-!
# C170: polygon offsets and the integer grid
-/

set_option linter.unusedSectionVars false
set_option linter.unusedVariables false

namespace Verif.Geom
open Verif PyFloat PyTrig

/-! ## Specification -/

/-- Specification: the point `(i, j)` of the grid with `10ⁿ` lines per unit. -/
noncomputable def gridPt (n : ℕ) (p : ℤ × ℤ) : P ℝ := ⟨p.1 / 10 ^ n, p.2 / 10 ^ n⟩

/-- Specification: `k` is `x` without its fraction. -/
def IsWhole (k : ℤ) (x : ℝ) : Prop := |x - k| < 1 ∧ |(k : ℝ)| ≤ |x| ∧ 0 ≤ x * k

/-- Specification: the points differ by at most `c` in each coordinate. -/
def Within (c : ℝ) (p q : P ℝ) : Prop := |p.x - q.x| ≤ c ∧ |p.y - q.y| ≤ c

/-- Specification: a polygon without the repeated first vertex at its end. -/
def openRing : List (ℤ × ℤ) → List (ℤ × ℤ)
  | [] => []
  | a :: l => if l ≠ [] ∧ (a :: l).getLast? = some a then (a :: l).dropLast else a :: l

/-- Specification: a point between two neighbouring vertices of a polygon, which is closed by an edge from the last to the first. -/
def OnRing (vs : List (P ℝ)) (p : P ℝ) : Prop := ∃ e ∈ cycPairs vs, ∃ t, 0 ≤ t ∧ t ≤ 1 ∧ p = segPt ⟨e.1, e.2⟩ t

/-! ## The grid -/

theorem trunc_whole (x : ℝ) : IsWhole (trunc x) x := by
  show IsWhole (if 0 ≤ x then ⌊x⌋ else ⌈x⌉) x
  split
  · rename_i h
    have h1 := Int.floor_le x
    have h2 := Int.lt_floor_add_one x
    have h3 : (0 : ℝ) ≤ ⌊x⌋ := by exact_mod_cast Int.floor_nonneg.mpr h
    exact ⟨by rw [abs_lt]; constructor <;> linarith, by rw [abs_of_nonneg h3, abs_of_nonneg h]; exact h1, by positivity⟩
  · rename_i h
    have hx : x < 0 := not_le.mp h
    have h1 := Int.le_ceil x
    have h2 := Int.ceil_lt_add_one x
    have h3 : (⌈x⌉ : ℝ) ≤ 0 := by exact_mod_cast Int.ceil_le.mpr (by simpa using hx.le)
    exact ⟨by rw [abs_lt]; constructor <;> linarith, by rw [abs_of_nonpos h3, abs_of_nonpos hx.le]; linarith, mul_nonneg_of_nonpos_of_nonpos hx.le h3⟩

theorem whole_int {k m : ℤ} (h : IsWhole k m) : k = m := by
  have : |m - k| < 1 := by exact_mod_cast h.1
  have := abs_lt.mp this
  omega

theorem trunc_int (m : ℤ) : trunc (m : ℝ) = m := whole_int (trunc_whole _)

theorem toGrid_gridPt (n : ℕ) (p : ℤ × ℤ) : toGrid n (gridPt n p) = p := by
  have e : ∀ k : ℤ, ((k : ℝ) / 10 ^ n * 10 ^ n) = k := fun k => by field_simp
  simp only [toGrid, gridPt, gridMult_real, real_mul, e, trunc_int]

theorem ofGrid_eq (n : ℕ) (p : ℤ × ℤ) : (ofGrid n p : P ℝ) = gridPt n p := by
  simp only [ofGrid, gridPt, gridMult_real, real_div, real_ofInt]

theorem gridPt_inj {n : ℕ} {p q : ℤ × ℤ} (h : gridPt n p = gridPt n q) : p = q := by
  rw [← toGrid_gridPt n p, h, toGrid_gridPt]

/-- **C170**, towards the grid: each vertex given to the offset library is the vertex of the polygon, in units of `10⁻ⁿ`, without the fractions of its coordinates: it moves by less than
a unit in each, and towards the axes. -/
theorem C170_to_grid (n : ℕ) (poly : List (P ℝ)) :
    List.Forall₂ (fun p g => IsWhole g.1 (p.x * 10 ^ n) ∧ IsWhole g.2 (p.y * 10 ^ n)) poly (poly2clipper n poly) := by
  induction poly with
  | nil => exact List.Forall₂.nil
  | cons p l ih =>
    refine List.Forall₂.cons ?_ ih
    simp only [toGrid, gridMult_real, real_mul]
    exact ⟨trunc_whole _, trunc_whole _⟩

theorem gridPt_within (n : ℕ) (p : P ℝ) : Within (1 / 10 ^ n) (gridPt n (toGrid n p)) p := by
  have hp : (0 : ℝ) < 10 ^ n := by positivity
  have key : ∀ x : ℝ, |(trunc (x * 10 ^ n) : ℝ) / 10 ^ n - x| ≤ 1 / 10 ^ n := by
    intro x
    have e : (trunc (x * 10 ^ n) : ℝ) / 10 ^ n - x = -(x * 10 ^ n - (trunc (x * 10 ^ n) : ℝ)) / 10 ^ n := by field_simp; ring
    rw [e, abs_div, abs_of_pos hp, abs_neg]
    exact div_le_div_of_nonneg_right (trunc_whole _).1.le hp.le
  simp only [toGrid, gridMult_real, real_mul, gridPt]
  exact ⟨key _, key _⟩

/-! ## Closing -/

theorem grid_apart {n : ℕ} {p q : ℤ × ℤ} (h : p ≠ q) : (1 / 10 ^ n) ^ 2 ≤ sqDist (gridPt n p) (gridPt n q) := by
  have hp : (0 : ℝ) < (10 ^ n) ^ 2 := by positivity
  have e : sqDist (gridPt n p) (gridPt n q) = (((p.1 - q.1) ^ 2 + (p.2 - q.2) ^ 2 : ℤ) : ℝ) / (10 ^ n) ^ 2 := by
    unfold sqDist gridPt
    push_cast
    field_simp
  rw [e, div_pow, one_pow]
  refine div_le_div_of_nonneg_right ?_ hp.le
  have h1 : 1 ≤ (p.1 - q.1) ^ 2 + (p.2 - q.2) ^ 2 := by
    by_contra hc
    have h2 := sq_nonneg (p.1 - q.1)
    have h3 := sq_nonneg (p.2 - q.2)
    have h4 : (p.1 - q.1) ^ 2 = 0 := by omega
    have h5 : (p.2 - q.2) ^ 2 = 0 := by omega
    exact h (Prod.ext (by have := pow_eq_zero_iff (two_ne_zero) |>.mp h4; omega) (by have := pow_eq_zero_iff (two_ne_zero) |>.mp h5; omega))
  exact_mod_cast h1

theorem ne_iff_sqDist (eps : ℝ) (p q : P ℝ) : P.ne eps p q = true ↔ eps ^ 2 ≤ sqDist p q := by
  unfold P.ne P.almostEq sqDist
  simp only [real_lt, real_add, real_sub, real_mul, Bool.not_eq_true', decide_eq_false_iff_not, not_lt]
  rw [show eps * eps = eps ^ 2 by ring, show (p.x - q.x) * (p.x - q.x) + (p.y - q.y) * (p.y - q.y) = (p.x - q.x) ^ 2 + (p.y - q.y) ^ 2 by ring]

theorem clipper2poly_eq (t : Tol ℝ) (a : ℤ × ℤ) (l : List (ℤ × ℤ)) :
    clipper2poly t (a :: l) = if 2 ≤ l.length ∧ t.eps ^ 2 ≤ sqDist (gridPt t.prec a) (gridPt t.prec ((a :: l).getLast (by simp)))
      then (a :: l).map (gridPt t.prec) ++ [gridPt t.prec a] else (a :: l).map (gridPt t.prec) := by
  have e : (a :: l).map (ofGrid t.prec) = (a :: l).map (gridPt t.prec) := List.map_congr_left fun p _ => ofGrid_eq _ _
  unfold clipper2poly
  rw [e]
  unfold closeRing
  have h1 : ((a :: l).map (gridPt t.prec)).head? = some (gridPt t.prec a) := rfl
  have h2 : ((a :: l).map (gridPt t.prec)).getLast? = some (gridPt t.prec ((a :: l).getLast (by simp))) := by
    rw [List.getLast?_map, List.getLast?_eq_some_getLast (by simp), Option.map_some]
  rw [h1, h2]
  dsimp only
  have hl : (2 < ((a :: l).map (gridPt t.prec)).length) ↔ 2 ≤ l.length := by simp
  by_cases hc : 2 ≤ l.length ∧ t.eps ^ 2 ≤ sqDist (gridPt t.prec a) (gridPt t.prec ((a :: l).getLast (by simp)))
  · rw [if_pos hc, if_pos]
    rw [Bool.and_eq_true, decide_eq_true_eq, hl, ne_iff_sqDist]
    exact hc
  · rw [if_neg hc, if_neg]
    rw [Bool.and_eq_true, decide_eq_true_eq, hl, ne_iff_sqDist]
    exact hc

/-- **C170**, from the grid: the polygon returned for one of at least three vertices of the library is made of the points of the grid with the same coordinates, in the same order, and it is closed: it ends
within the tolerance of its first vertex, and if the tolerance is not above `10⁻ⁿ` exactly there. -/
theorem C170_from_grid (t : Tol ℝ) (h0 : 0 < t.eps) (l : List (ℤ × ℤ)) (h : 2 < l.length) :
    ∃ p0 pn, (clipper2poly t l).head? = some p0 ∧ (clipper2poly t l).getLast? = some pn ∧ sqDist p0 pn < t.eps ^ 2 ∧
      (t.eps ≤ 1 / 10 ^ t.prec → pn = p0) ∧
      (clipper2poly t l = l.map (gridPt t.prec) ∨ clipper2poly t l = l.map (gridPt t.prec) ++ [p0]) := by
  match l, h with
  | a :: l, h =>
    rw [clipper2poly_eq]
    split
    · refine ⟨gridPt t.prec a, gridPt t.prec a, rfl, ?_, ?_, fun _ => rfl, Or.inr rfl⟩
      · rw [List.getLast?_append]; rfl
      · unfold sqDist; simp only [sub_self]; have := pow_pos h0 2; linarith
    · rename_i hc
      have hl : 2 ≤ l.length := by simpa using Nat.lt_succ_iff.mp h
      have hd : sqDist (gridPt t.prec a) (gridPt t.prec ((a :: l).getLast (by simp))) < t.eps ^ 2 := by
        by_contra hn
        exact hc ⟨hl, not_lt.mp hn⟩
      refine ⟨gridPt t.prec a, gridPt t.prec ((a :: l).getLast (by simp)), rfl, ?_, hd, fun he => ?_, Or.inl rfl⟩
      · rw [List.getLast?_map, List.getLast?_eq_some_getLast (by simp)]; rfl
      · by_contra hne
        have hne' : a ≠ (a :: l).getLast (by simp) := fun h => hne (by rw [← h])
        have h1 := grid_apart (n := t.prec) hne'
        have h2 : t.eps ^ 2 ≤ (1 / 10 ^ t.prec) ^ 2 := by
          have : (0 : ℝ) < 1 / 10 ^ t.prec := by positivity
          nlinarith
        linarith

/-! ## Removing repeated vertices -/

theorem stripLoop_chain (l : List (ℤ × ℤ)) (h : l.IsChain (· ≠ ·)) (k i : ℕ) (hi : 0 < i) (hk : i + k = l.length ∨ k = 0) : stripLoop k i l = .ok l := by
  induction k generalizing i with
  | zero => rfl
  | succ k ih =>
    have hk' : i + (k + 1) = l.length := by omega
    have h1 : i - 1 < l.length := by omega
    have h2 : i < l.length := by omega
    unfold stripLoop
    rw [List.getElem?_eq_getElem h1, List.getElem?_eq_getElem h2]
    dsimp only
    have hne : l[i - 1] ≠ l[i] := by
      have := List.isChain_iff_getElem.mp h (i - 1) (by omega)
      have e : i - 1 + 1 = i := by omega
      simpa only [e] using this
    rw [if_neg hne]
    exact ih (i + 1) (by omega) (by omega)

theorem stripLoop_short (k i : ℕ) (l : List (ℤ × ℤ)) (hk : 0 < k) (h : l.length < i + k) : stripLoop k i l = .error .indexError := by
  induction k generalizing i l with
  | zero => omega
  | succ k ih =>
    unfold stripLoop
    rcases e1 : l[i - 1]? with _ | a
    · rfl
    · rcases e2 : l[i]? with _ | b
      · rfl
      · dsimp only
        have h2 : i < l.length := (List.getElem?_eq_some_iff.mp e2).1
        have hl : (if a = b then l.eraseIdx i else l).length ≤ l.length := by
          split
          · exact List.length_eraseIdx_le l i
          · exact le_rfl
        exact ih _ _ (by omega) (by omega)

theorem stripLoop_dup (k i j : ℕ) (l : List (ℤ × ℤ)) (hi : 0 < i) (hk : i + k = l.length) (hij : i ≤ j) (hj : j + 1 < l.length) (h : l[j - 1]? = l[j]?) :
    stripLoop k i l = .error .indexError := by
  induction k generalizing i with
  | zero => omega
  | succ k ih =>
    have h1 : i - 1 < l.length := by omega
    have h2 : i < l.length := by omega
    unfold stripLoop
    rw [List.getElem?_eq_getElem h1, List.getElem?_eq_getElem h2]
    dsimp only
    by_cases hc : l[i - 1] = l[i]
    · rw [if_pos hc]
      exact stripLoop_short _ _ _ (by omega) (by rw [List.length_eraseIdx_of_lt h2]; omega)
    · rw [if_neg hc]
      refine ih (i + 1) (by omega) (by omega) ?_
      rcases eq_or_lt_of_le hij with rfl | h'
      · rw [List.getElem?_eq_getElem h1, List.getElem?_eq_getElem h2, Option.some.injEq] at h
        exact absurd h hc
      · omega

theorem stripEnd_ring (l : List (ℤ × ℤ)) (h : l.IsChain (· ≠ ·)) : stripEnd (l.length - 1) l = openRing l := by
  match l with
  | [] => rfl
  | [a] => simp [stripEnd, openRing]
  | a :: b :: l =>
    have hlast : (a :: b :: l)[(a :: b :: l).length - 1]? = (a :: b :: l).getLast? := by rw [List.getLast?_eq_getElem?]
    show stripEnd (l.length + 1) _ = _
    have e : (a :: b :: l).length - 1 = l.length + 1 := by simp
    rw [e] at hlast
    have eo : openRing (a :: b :: l) = if (a :: b :: l).getLast? = some a then (a :: b :: l).dropLast else a :: b :: l := by simp [openRing]
    rw [eo]
    unfold stripEnd
    rw [hlast]
    by_cases hc : (a :: b :: l).getLast? = some a
    · rw [if_pos (by simpa using hc), if_pos hc]
      have hd : (a :: b :: l).eraseIdx (l.length + 1) = (a :: b :: l).dropLast := by
        rw [List.eraseIdx_eq_take_drop_succ, List.dropLast_eq_take]
        simp
      rw [hd]
      cases hl : l.length with
      | zero => rfl
      | succ m =>
        unfold stripEnd
        rw [if_neg]
        intro h'
        have hm : m + 1 + 1 < (a :: b :: l).length := by simp; omega
        have hm' : m + 1 < (a :: b :: l).dropLast.length := by simp; omega
        have hne := List.isChain_iff_getElem.mp h (m + 1) (by omega)
        rw [List.getElem?_eq_getElem hm', List.getElem_dropLast] at h'
        have hz : (a :: b :: l).dropLast[0]? = some a := by
          rw [List.getElem?_eq_getElem (by simp), List.getElem_dropLast]; rfl
        rw [hz, Option.some.injEq] at h'
        have hla : (a :: b :: l)[m + 1 + 1] = a := by
          have := hlast
          rw [hc, hl, List.getElem?_eq_getElem hm, Option.some.injEq] at this
          exact this
        exact hne (by rw [h', hla])
    · rw [if_neg (by simpa using hc), if_neg hc]

theorem stripDups_chain (l : List (ℤ × ℤ)) (h : l.IsChain (· ≠ ·)) : stripDups l = .ok (openRing l) := by
  unfold stripDups
  rw [stripLoop_chain l h _ 1 (by omega) (by omega)]
  exact congrArg Except.ok (stripEnd_ring l h)

/-! ## The area -/

theorem areaOpen_eq (a : ℤ × ℤ) (l : List (ℤ × ℤ)) : areaOpen (a :: l) = ((pairsFrom a l).map fun e => areaTerm e.1 e.2).sum := by
  induction l generalizing a with
  | nil => rfl
  | cons b l ih => rw [areaOpen, ih b, pairsFrom, List.map_cons, List.sum_cons]

theorem clipArea2_eq (l : List (ℤ × ℤ)) : clipArea2 l = ((cycPairs l).map fun e => areaTerm e.1 e.2).sum := by
  cases l with
  | nil => rfl
  | cons a l =>
    have h : (a :: l).getLast? = some (l.getLastD a) := by rw [List.getLast?_cons, List.getLastD_eq_getLast?]
    unfold clipArea2
    rw [h, cycPairs_cons, List.map_cons, List.sum_cons, areaOpen_eq]
    rfl

theorem clipArea2_real (n : ℕ) (l : List (ℤ × ℤ)) : (clipArea2 l : ℝ) = -(2 * polyArea (l.map (gridPt n))) * (10 ^ n) ^ 2 := by
  rw [polyArea_eq, clipArea2_eq, cycPairs_map, List.map_map]
  have ht := sum_telescope (fun p : ℤ × ℤ => (p.1 * p.2 : ℝ)) l
  have key : ∀ L : List ((ℤ × ℤ) × (ℤ × ℤ)), (((L.map fun e => areaTerm e.1 e.2).sum : ℤ) : ℝ) =
      -(L.map ((fun e : P ℝ × P ℝ => e.2.x * e.1.y - e.1.x * e.2.y) ∘ Prod.map (gridPt n) (gridPt n))).sum * (10 ^ n) ^ 2 +
        (L.map fun e => ((fun p : ℤ × ℤ => (p.1 * p.2 : ℝ)) e.2 - (fun p : ℤ × ℤ => (p.1 * p.2 : ℝ)) e.1)).sum := by
    intro L
    induction L with
    | nil => simp
    | cons e L ih =>
      simp only [List.map_cons, List.sum_cons, Int.cast_add]
      rw [ih]
      simp only [Function.comp, Prod.map, gridPt, areaTerm]
      push_cast
      field_simp
      ring
  rw [key, ht]
  ring

theorem clipArea2_neg (n : ℕ) (l : List (ℤ × ℤ)) : clipArea2 l < 0 ↔ 0 < polyArea (l.map (gridPt n)) := by
  have hp : (0 : ℝ) < (10 ^ n) ^ 2 := by positivity
  have e := clipArea2_real n l
  constructor
  · intro h
    have h' : (clipArea2 l : ℝ) < 0 := by exact_mod_cast h
    rw [e] at h'
    by_contra hn
    nlinarith [not_lt.mp hn]
  · intro h
    have h' : (clipArea2 l : ℝ) < 0 := by rw [e]; nlinarith
    exact_mod_cast h'

/-! ## Offsets -/

theorem openRing_pairs (g : List (ℤ × ℤ)) : ∀ e ∈ cycPairs (openRing g), e ∈ cycPairs g := by
  intro e he
  match g with
  | [] => exact he
  | a :: l =>
    unfold openRing at he
    dsimp only at he
    split at he
    · rename_i h
      rcases List.eq_nil_or_concat l with rfl | ⟨m, z, rfl⟩
      · exact absurd rfl h.1
      · rw [List.concat_eq_append] at *
        have hz : z = a := by
          have := h.2
          rw [← List.cons_append, List.getLast?_concat, Option.some.injEq] at this
          exact this
        subst hz
        rw [← List.cons_append, List.dropLast_concat, cycPairs_cons] at he
        rw [cycPairs_cons, pairsFrom_append]
        rcases List.mem_cons.mp he with rfl | h'
        · exact List.mem_cons_of_mem _ (List.mem_append_right _ (List.mem_singleton.mpr rfl))
        · exact List.mem_cons_of_mem _ (List.mem_append_left _ h')
    · exact he

theorem gridPt_zero (n : ℕ) (p : ℤ × ℤ) : gridPt n p = ⟨(gridPt 0 p).x / 10 ^ n, (gridPt 0 p).y / 10 ^ n⟩ := by simp [gridPt]

/-- A point of the ring of the library, in units of the drawing, is less than a unit of the grid from a point of the polygon. -/
theorem onRing_near (n : ℕ) (poly : List (P ℝ)) {p : P ℝ} (h : OnRing ((openRing (poly2clipper n poly)).map (gridPt 0)) p) :
    ∃ q, OnRing poly q ∧ Within (1 / 10 ^ n) ⟨p.x / 10 ^ n, p.y / 10 ^ n⟩ q := by
  obtain ⟨e, he, t, h0, h1, rfl⟩ := h
  rw [cycPairs_map, List.mem_map] at he
  obtain ⟨e', he', rfl⟩ := he
  have he2 := openRing_pairs _ _ he'
  unfold poly2clipper at he2
  rw [cycPairs_map, List.mem_map] at he2
  obtain ⟨⟨a, b⟩, hab, rfl⟩ := he2
  refine ⟨segPt ⟨a, b⟩ t, ⟨_, hab, t, h0, h1, rfl⟩, ?_⟩
  have ha := gridPt_within n a
  have hb := gridPt_within n b
  rw [gridPt_zero] at ha hb
  have hp : (0 : ℝ) < 10 ^ n := by positivity
  have hd : (0 : ℝ) < 1 / 10 ^ n := by positivity
  have key : ∀ u v u' v' : ℝ, |u / 10 ^ n - u'| ≤ 1 / 10 ^ n → |v / 10 ^ n - v'| ≤ 1 / 10 ^ n →
      |(u + t * (v - u)) / 10 ^ n - (u' + t * (v' - u'))| ≤ 1 / 10 ^ n := by
    intro u v u' v' hu hv
    have e : (u + t * (v - u)) / 10 ^ n - (u' + t * (v' - u')) = (1 - t) * (u / 10 ^ n - u') + t * (v / 10 ^ n - v') := by field_simp; ring
    rw [e]
    calc _ ≤ |(1 - t) * (u / 10 ^ n - u')| + |t * (v / 10 ^ n - v')| := abs_add_le _ _
      _ = (1 - t) * |u / 10 ^ n - u'| + t * |v / 10 ^ n - v'| := by rw [abs_mul, abs_mul, abs_of_nonneg h0, abs_of_nonneg (by linarith : 0 ≤ 1 - t)]
      _ ≤ (1 - t) * (1 / 10 ^ n) + t * (1 / 10 ^ n) := by
        gcongr
      _ = _ := by ring
  exact ⟨key _ _ _ _ ha.1 hb.1, key _ _ _ _ ha.2 hb.2⟩

theorem mem_clipper2poly {t : Tol ℝ} {l : List (ℤ × ℤ)} {v : P ℝ} (h : v ∈ clipper2poly t l) : ∃ g ∈ l, v = gridPt t.prec g := by
  match l with
  | [] => simp [clipper2poly, closeRing] at h
  | a :: l =>
    rw [clipper2poly_eq] at h
    have key : v ∈ (a :: l).map (gridPt t.prec) → ∃ g ∈ a :: l, v = gridPt t.prec g := by
      intro h
      obtain ⟨g, hg, e⟩ := List.mem_map.mp h
      exact ⟨g, hg, e.symm⟩
    split at h
    · rcases List.mem_append.mp h with h | h
      · exact key h
      · exact ⟨a, by simp, List.mem_singleton.mp h⟩
    · exact key h

theorem offsetPolygons_ok (inner : Inner ℝ) (t : Tol ℝ) (poly : List (P ℝ)) (offset : ℝ) (jt : ℤ) (limit : ℝ)
    (hc : (poly2clipper t.prec poly).IsChain (· ≠ ·)) :
    offsetPolygons inner t poly offset jt limit =
      if (openRing (poly2clipper t.prec poly)).length < 3 then .ok []
      else if 0 < polyArea ((openRing (poly2clipper t.prec poly)).map (gridPt t.prec)) then .error .typeError
      else .ok ((if offset = 0 then [openRing (poly2clipper t.prec poly)]
        else inner [openRing (poly2clipper t.prec poly)] (offset * 10 ^ t.prec) jt (limit * 10 ^ t.prec)).map (clipper2poly t)) := by
  have hp : (10 : ℝ) ^ t.prec ≠ 0 := by positivity
  unfold offsetPolygons clipperOffset
  rw [stripDups_chain _ hc]
  dsimp only
  simp only [real_mul, gridMult_real]
  by_cases h3 : (openRing (poly2clipper t.prec poly)).length < 3
  · rw [if_pos h3, if_pos h3]; rfl
  · rw [if_neg h3, if_neg h3]
    by_cases ha : clipArea2 (openRing (poly2clipper t.prec poly)) < 0
    · rw [if_pos ha, if_pos ((clipArea2_neg t.prec _).mp ha)]; rfl
    · rw [if_neg ha, if_neg (fun h => ha ((clipArea2_neg t.prec _).mpr h))]
      unfold offsetInternal
      simp only [real_beq, real_zero, decide_eq_true_eq, mul_eq_zero, hp, or_false]
      rfl

/-- **C170** (counter-clockwise polygons).  Let no two neighbouring vertices fall on the same point of the grid, let at least three vertices be left, and let them not be in clockwise order (`area` is positive
for those).  Then there is no exception; and if the library puts every vertex within `r` times the offset it is given, plus `s` of its units, of a point of the polygon it is given,
then every vertex returned is within `r` times the offset, plus `s + 1` units of `10⁻ⁿ`, of a point of the polygon. -/
theorem C170_offset_partial (inner : Inner ℝ) (t : Tol ℝ) (poly : List (P ℝ)) (offset : ℝ) (jt : ℤ) (limit r s : ℝ) (hr : 0 ≤ r) (hs : 0 ≤ s)
    (hc : (poly2clipper t.prec poly).IsChain (· ≠ ·)) (h3 : 3 ≤ (openRing (poly2clipper t.prec poly)).length)
    (ha : polyArea ((openRing (poly2clipper t.prec poly)).map (gridPt t.prec)) ≤ 0)
    (hin : ∀ ring ∈ inner [openRing (poly2clipper t.prec poly)] (offset * 10 ^ t.prec) jt (limit * 10 ^ t.prec), ∀ v ∈ ring,
      ∃ p, OnRing ((openRing (poly2clipper t.prec poly)).map (gridPt 0)) p ∧ Within (r * |offset * 10 ^ t.prec| + s) (gridPt 0 v) p) :
    ∃ res, offsetPolygons inner t poly offset jt limit = .ok res ∧
      ∀ ring ∈ res, ∀ v ∈ ring, ∃ p, OnRing poly p ∧ Within (r * |offset| + (s + 1) / 10 ^ t.prec) v p := by
  have hp : (0 : ℝ) < 10 ^ t.prec := by positivity
  rw [offsetPolygons_ok inner t poly offset jt limit hc, if_neg (by omega), if_neg (not_lt.mpr ha)]
  refine ⟨_, rfl, ?_⟩
  intro ring hring v hv
  obtain ⟨g, hg, rfl⟩ := List.mem_map.mp hring
  obtain ⟨w, hw, rfl⟩ := mem_clipper2poly hv
  have near : ∃ p, OnRing ((openRing (poly2clipper t.prec poly)).map (gridPt 0)) p ∧ Within (r * |offset * 10 ^ t.prec| + s) (gridPt 0 w) p := by
    split at hg
    · rw [List.mem_singleton] at hg
      subst hg
      have hn : 0 ≤ r * |offset * 10 ^ t.prec| + s := by positivity
      refine ⟨gridPt 0 w, ?_, by simpa [Within] using hn⟩
      obtain ⟨e, he, hew⟩ : ∃ e ∈ cycPairs (openRing (poly2clipper t.prec poly)), e.2 = w := by
        have : ∀ (l : List (ℤ × ℤ)) (a : ℤ × ℤ), w ∈ l → ∃ e ∈ pairsFrom a l, e.2 = w := by
          intro l
          induction l with
          | nil => intro a h; simp at h
          | cons b l ih =>
            intro a h
            rcases List.mem_cons.mp h with rfl | h
            · exact ⟨(a, w), by simp [pairsFrom], rfl⟩
            · obtain ⟨e, he, h'⟩ := ih b h
              exact ⟨e, by simp [pairsFrom, he], h'⟩
        unfold cycPairs
        rcases hl : (openRing (poly2clipper t.prec poly)).getLast? with _ | z
        · rw [List.getLast?_eq_none_iff] at hl
          rw [hl] at hw
          simp at hw
        · exact this _ z hw
      refine ⟨Prod.map (gridPt 0) (gridPt 0) e, by rw [cycPairs_map]; exact List.mem_map_of_mem he, 1, by norm_num, le_rfl, ?_⟩
      rw [← hew]
      unfold segPt
      refine P.ext ?_ ?_ <;> simp
    · exact hin g hg w hw
  obtain ⟨p, hp1, hp2⟩ := near
  obtain ⟨q, hq1, hq2⟩ := onRing_near t.prec poly hp1
  refine ⟨q, hq1, ?_⟩
  rw [gridPt_zero]
  have e1 : |offset * 10 ^ t.prec| = |offset| * 10 ^ t.prec := by rw [abs_mul, abs_of_pos hp]
  rw [e1] at hp2
  have key : ∀ u v z : ℝ, |u - v| ≤ r * (|offset| * 10 ^ t.prec) + s → |v / 10 ^ t.prec - z| ≤ 1 / 10 ^ t.prec →
      |u / 10 ^ t.prec - z| ≤ r * |offset| + (s + 1) / 10 ^ t.prec := by
    intro u v z h1 h2
    have h1' : |u / 10 ^ t.prec - v / 10 ^ t.prec| ≤ r * |offset| + s / 10 ^ t.prec := by
      rw [← sub_div, abs_div, abs_of_pos hp, div_le_iff₀ hp]
      calc _ ≤ _ := h1
        _ = _ := by field_simp
    calc |u / 10 ^ t.prec - z| ≤ |u / 10 ^ t.prec - v / 10 ^ t.prec| + |v / 10 ^ t.prec - z| := abs_sub_le _ _ _
      _ ≤ (r * |offset| + s / 10 ^ t.prec) + 1 / 10 ^ t.prec := add_le_add h1' h2
      _ = _ := by ring
  exact ⟨key _ _ _ hp2.1 hq2.1, key _ _ _ hp2.2 hq2.2⟩

/-- **C170** (too few vertices): a polygon of which fewer than three vertices are left gives no polygon, as documented. -/
theorem C170_few (inner : Inner ℝ) (t : Tol ℝ) (poly : List (P ℝ)) (offset : ℝ) (jt : ℤ) (limit : ℝ)
    (hc : (poly2clipper t.prec poly).IsChain (· ≠ ·)) (h3 : (openRing (poly2clipper t.prec poly)).length < 3) :
    offsetPolygons inner t poly offset jt limit = .ok [] := by
  rw [offsetPolygons_ok inner t poly offset jt limit hc, if_pos h3]

/-- **C170, refuted (clockwise polygons).**  Every polygon on the grid with at least three vertices, no two neighbours the same, whose vertices are in clockwise order makes `offset_polygons` fail with a `TypeError`, whatever the offset and the library; with its vertices
in the opposite order there is no exception. -/
theorem C170_refuted_clockwise (inner : Inner ℝ) (t : Tol ℝ) (l : List (ℤ × ℤ)) (offset : ℝ) (jt : ℤ) (limit : ℝ) (hc : l.IsChain (· ≠ ·)) (h3 : 3 ≤ l.length)
    (he : l.head? ≠ l.getLast?) (ha : 0 < polyArea (l.map (gridPt t.prec))) :
    offsetPolygons inner t (l.map (gridPt t.prec)) offset jt limit = .error .typeError ∧
      ∃ res, offsetPolygons inner t (l.reverse.map (gridPt t.prec)) offset jt limit = .ok res := by
  have hg : ∀ l : List (ℤ × ℤ), poly2clipper t.prec (l.map (gridPt t.prec)) = l := by
    intro l
    unfold poly2clipper
    rw [List.map_map]
    conv_rhs => rw [← List.map_id l]
    exact List.map_congr_left fun p _ => toGrid_gridPt _ _
  have ho : ∀ l : List (ℤ × ℤ), l.head? ≠ l.getLast? → openRing l = l := by
    intro l h
    cases l with
    | nil => rfl
    | cons a l =>
      unfold openRing
      dsimp only
      rw [if_neg]
      rintro ⟨-, h'⟩
      exact h (by rw [h']; rfl)
  constructor
  · rw [offsetPolygons_ok inner t _ offset jt limit (by rw [hg]; exact hc), hg, ho l he, if_neg (by omega), if_pos ha]
  · have hc' : l.reverse.IsChain (· ≠ ·) := by
      rw [List.isChain_reverse]
      exact hc.imp fun a b h => h.symm
    have he' : l.reverse.head? ≠ l.reverse.getLast? := by
      rw [List.head?_reverse, List.getLast?_reverse]
      exact he.symm
    have ha' : ¬ 0 < polyArea (l.reverse.map (gridPt t.prec)) := by
      rw [List.map_reverse, (C51_area_invariance (l.map (gridPt t.prec)) ⟨0, 0⟩ 0).2.2]
      linarith
    rw [offsetPolygons_ok inner t _ offset jt limit (by rw [hg]; exact hc'), hg, ho _ he', if_neg (by simpa using h3), if_neg ha']
    exact ⟨_, rfl⟩

/-- **C170, refuted (vertices close together).**  If two neighbouring vertices, other than the last two, fall on the same point of the grid, `offset_polygons` fails with an `IndexError`, whatever the rest of the polygon, the offset and the library. -/
theorem C170_refuted_close (inner : Inner ℝ) (t : Tol ℝ) (pre post : List (P ℝ)) (a b : P ℝ) (offset : ℝ) (jt : ℤ) (limit : ℝ)
    (hab : toGrid t.prec a = toGrid t.prec b) (hpost : post ≠ []) :
    offsetPolygons inner t (pre ++ a :: b :: post) offset jt limit = .error .indexError := by
  have hl : 0 < post.length := List.length_pos_iff.mpr hpost
  unfold offsetPolygons clipperOffset stripDups
  rw [stripLoop_dup _ 1 (pre.length + 1) _ (by omega)]
  · rfl
  · simp [poly2clipper]; omega
  · omega
  · simp [poly2clipper]; omega
  · unfold poly2clipper
    rw [List.map_append, List.map_cons, List.map_cons]
    rw [List.getElem?_append_right (by simp), List.getElem?_append_right (by simp)]
    simp [hab]

/-! ## Examples -/

/-- The constants after `set_epsilon(0.1)`. -/
noncomputable def tolTenth : Tol ℝ := ⟨1 / 10, 1 / 100, 1, floatFmt 1⟩

/-- A square on the grid with a tenth as its unit, clockwise. -/
def squareCw : List (ℤ × ℤ) := [(0, 0), (0, 10), (10, 10), (10, 0)]

/-- The square meets the hypotheses of the refutation. -/
example : squareCw.IsChain (· ≠ ·) ∧ 3 ≤ squareCw.length ∧ squareCw.head? ≠ squareCw.getLast? ∧ 0 < polyArea (squareCw.map (gridPt tolTenth.prec)) := by
  refine ⟨by decide, by decide, by decide, ?_⟩
  rw [← clipArea2_neg]
  decide

/-- The hypotheses of `C170_offset_partial` hold for a triangle that is not on the grid, closed, and a library that returns the triangle itself. -/
example : let poly : List (P ℝ) := [⟨0, 0⟩, ⟨1.23, 0⟩, ⟨0, 1.5⟩, ⟨0, 0⟩]
    poly2clipper tolTenth.prec poly = [(0, 0), (12, 0), (0, 15), (0, 0)] ∧
      openRing [(0, 0), (12, 0), (0, 15), (0, 0)] = [(0, 0), (12, 0), (0, 15)] ∧
      polyArea ([(0, 0), (12, 0), (0, 15)].map (gridPt tolTenth.prec)) ≤ 0 := by
  refine ⟨?_, by decide, ?_⟩
  · have h : ∀ (x : ℝ), 0 ≤ x → (trunc x : ℤ) = ⌊x⌋ := fun x hx => by
      show (if 0 ≤ x then ⌊x⌋ else ⌈x⌉) = _
      rw [if_pos hx]
    simp only [poly2clipper, List.map_cons, List.map_nil, toGrid, gridMult_real, real_mul, tolTenth]
    rw [h _ (by norm_num), h _ (by norm_num), h _ (by norm_num)]
    norm_num [Int.floor_eq_iff]
  · rw [← not_lt, ← clipArea2_neg]
    decide

end Verif.Geom
