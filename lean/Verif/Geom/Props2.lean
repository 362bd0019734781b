import Verif.Geom.Polygon
import Verif.Geom.Props1
import Mathlib.Algebra.BigOperators.Group.List.Basic

/-!
# Properties C49, C51–C54 (clipping, polygons)
-/

set_option linter.unusedSectionVars false

namespace Verif.Geom
open Verif PyFloat PyTrig

/-! ## Cyclic pairs -/

theorem pairsFrom_append {α : Type} (a : α) (l : List α) (b : α) :
    pairsFrom a (l ++ [b]) = pairsFrom a l ++ [(l.getLastD a, b)] := by
  induction l generalizing a with
  | nil => rfl
  | cons c l ih => rw [List.cons_append, pairsFrom, ih c, pairsFrom, List.getLastD_cons, List.cons_append]

theorem getLast?_cons_getLastD {α : Type} (v : α) (vs : List α) : (v :: vs).getLast? = some (vs.getLastD v) := by
  induction vs generalizing v with
  | nil => rfl
  | cons w vs ih => rw [List.getLast?_cons_cons, ih w, List.getLastD_cons]

theorem getLastD_mem {α : Type} (v : α) (vs : List α) : vs.getLastD v ∈ v :: vs :=
  List.mem_of_getLast? (getLast?_cons_getLastD v vs)

theorem cycPairs_cons {α : Type} (v : α) (vs : List α) :
    cycPairs (v :: vs) = (vs.getLastD v, v) :: pairsFrom v vs := by
  unfold cycPairs
  rw [getLast?_cons_getLastD]
  rfl

theorem cycPairs_snoc {α : Type} (v : α) (vs : List α) :
    cycPairs (vs ++ [v]) = pairsFrom v vs ++ [(vs.getLastD v, v)] := by
  unfold cycPairs
  rw [List.getLast?_append]
  simp only [List.getLast?_singleton, Option.some_or]
  exact pairsFrom_append v vs v

/-- Choosing another first vertex permutes the edges. -/
theorem cycPairs_rotate {α : Type} (vs : List α) (n : Nat) : (cycPairs (vs.rotate n)).Perm (cycPairs vs) := by
  induction n with
  | zero => simp
  | succ n ih =>
    rw [← List.rotate_rotate]
    refine List.Perm.trans ?_ ih
    generalize vs.rotate n = ws
    cases ws with
    | nil => simp
    | cons w ws =>
      rw [List.rotate_cons_succ, List.rotate_zero, cycPairs_snoc, cycPairs_cons]
      exact List.perm_append_singleton _ _

theorem pairsFrom_map {α β : Type} (f : α → β) (a : α) (l : List α) :
    pairsFrom (f a) (l.map f) = (pairsFrom a l).map (Prod.map f f) := by
  induction l generalizing a with
  | nil => rfl
  | cons c l ih => simp [pairsFrom, ih c]

/-- Moving every vertex moves every edge. -/
theorem cycPairs_map {α β : Type} (f : α → β) (l : List α) :
    cycPairs (l.map f) = (cycPairs l).map (Prod.map f f) := by
  cases l with
  | nil => rfl
  | cons c l =>
    rw [List.map_cons, cycPairs_cons, cycPairs_cons, pairsFrom_map, List.map_cons]
    congr 1
    simp only [Prod.map, Prod.mk.injEq, and_true]
    induction l generalizing c with
    | nil => rfl
    | cons d l ih => rw [List.map_cons, List.getLastD_cons, List.getLastD_cons, ih d]

theorem pairsFrom_reverse {α : Type} (a b : α) (l : List α) :
    pairsFrom b (l.reverse ++ [a]) = ((pairsFrom a (l ++ [b])).map Prod.swap).reverse := by
  induction l generalizing a with
  | nil => rfl
  | cons c l ih =>
    rw [List.cons_append]
    conv_rhs => rw [pairsFrom]
    rw [List.map_cons, List.reverse_cons, List.reverse_cons, ← ih c, pairsFrom_append]
    congr 1
    simp [Prod.swap]

/-- Reversing the vertex order reverses every edge (the edges themselves are permuted). -/
theorem cycPairs_reverse {α : Type} (vs : List α) :
    (cycPairs vs.reverse).Perm ((cycPairs vs).map Prod.swap) := by
  cases vs with
  | nil => rfl
  | cons v vs =>
    -- cyclic list of edges of `v :: vs` is a permutation of the edges of `v, vs, v`
    have e1 : (cycPairs (v :: vs)).Perm (pairsFrom v (vs ++ [v])) := by
      rw [cycPairs_cons, pairsFrom_append]
      exact (List.perm_append_singleton _ _).symm
    have e2 : cycPairs (v :: vs).reverse = pairsFrom v (vs.reverse ++ [v]) := by
      rw [List.reverse_cons, cycPairs_snoc, pairsFrom_append]
    rw [e2, pairsFrom_reverse]
    refine (List.reverse_perm _).trans ?_
    exact (e1.map _).symm

theorem cycPairs_mem {α : Type} {vs : List α} {e : α × α} (h : e ∈ cycPairs vs) : e.1 ∈ vs ∧ e.2 ∈ vs := by
  have aux : ∀ (a : α) (l : List α), e ∈ pairsFrom a l → (e.1 = a ∨ e.1 ∈ l) ∧ e.2 ∈ l := by
    intro a l
    induction l generalizing a with
    | nil => intro h; simp [pairsFrom] at h
    | cons c l ih =>
      intro h
      rcases List.mem_cons.1 h with rfl | h
      · simp
      · obtain ⟨h1, h2⟩ := ih c h
        refine ⟨.inr ?_, List.mem_cons_of_mem _ h2⟩
        rcases h1 with h1 | h1
        · rw [h1]; exact List.mem_cons_self
        · exact List.mem_cons_of_mem _ h1
  cases vs with
  | nil => simp [cycPairs] at h
  | cons v vs =>
    rw [cycPairs_cons] at h
    rcases List.mem_cons.1 h with rfl | h
    · exact ⟨getLastD_mem v vs, List.mem_cons_self⟩
    · obtain ⟨h1, h2⟩ := aux v vs h
      refine ⟨?_, List.mem_cons_of_mem _ h2⟩
      rcases h1 with h1 | h1
      · rw [h1]; exact List.mem_cons_self
      · exact List.mem_cons_of_mem _ h1

/-- A sum of differences around the polygon vanishes. -/
theorem sum_telescope {α : Type} (g : α → ℝ) (vs : List α) :
    ((cycPairs vs).map (fun e => g e.2 - g e.1)).sum = 0 := by
  have aux : ∀ (a : α) (l : List α),
      ((pairsFrom a l).map (fun e => g e.2 - g e.1)).sum = g (l.getLastD a) - g a := by
    intro a l
    induction l generalizing a with
    | nil => simp [pairsFrom]
    | cons c l ih =>
      simp only [pairsFrom, List.map_cons, List.sum_cons]
      rw [ih c, List.getLastD_cons]
      ring
  cases vs with
  | nil => rfl
  | cons v vs =>
    rw [cycPairs_cons]
    simp only [List.map_cons, List.sum_cons]
    rw [aux v vs]
    ring

theorem foldl_add_sum {α : Type} (f : α → ℝ) (l : List α) (a : ℝ) :
    l.foldl (fun s e => PyFloat.add s (f e)) a = a + (l.map f).sum := by
  induction l generalizing a with
  | nil => simp
  | cons c l ih => rw [List.foldl_cons, ih]; simp [add_assoc]

/-! ## C51: area -/

/-- Specification: twice the signed area of the triangle `o p q`, positive when `o → p → q` turns left. -/
def leftArea2 (o p q : P ℝ) : ℝ := (p.x - o.x) * (q.y - o.y) - (q.x - o.x) * (p.y - o.y)

/-- Specification: translation by a vector. -/
def shiftP (t p : P ℝ) : P ℝ := ⟨p.x + t.x, p.y + t.y⟩

theorem polyArea_eq (vs : List (P ℝ)) :
    polyArea vs = ((cycPairs vs).map (fun e => e.2.x * e.1.y - e.1.x * e.2.y)).sum / 2 := by
  unfold polyArea
  rw [foldl_add_sum, real_zero, zero_add]
  rfl

/-- The shoelace sum about any reference point: `area` is **minus** half the sum of the signed triangles. -/
theorem polyArea_triangles (o : P ℝ) (vs : List (P ℝ)) :
    polyArea vs = -((cycPairs vs).map (fun e => leftArea2 o e.1 e.2)).sum / 2 := by
  rw [polyArea_eq]
  have h' : ∀ e : P ℝ × P ℝ, e.2.x * e.1.y - e.1.x * e.2.y
      = -(leftArea2 o e.1 e.2) + ((fun p : P ℝ => o.y * p.x - o.x * p.y) e.2 -
        (fun p : P ℝ => o.y * p.x - o.x * p.y) e.1) := by
    intro e; unfold leftArea2; ring
  rw [List.map_congr_left (fun e _ => h' e), List.sum_map_add,
    sum_telescope (fun p : P ℝ => o.y * p.x - o.x * p.y)]
  rw [add_zero]
  congr 1
  induction cycPairs vs with
  | nil => simp
  | cons a l ih => simp only [List.map_cons, List.sum_cons, ih]; ring

/-- **C51** (invariance).  The area does not change under translation or under choice of the first vertex, and changes
sign when the vertex order is reversed. -/
theorem C51_area_invariance (vs : List (P ℝ)) (t : P ℝ) (n : Nat) :
    polyArea (vs.map (shiftP t)) = polyArea vs ∧ polyArea (vs.rotate n) = polyArea vs ∧
      polyArea vs.reverse = -polyArea vs := by
  refine ⟨?_, ?_, ?_⟩
  · rw [polyArea_triangles t, polyArea_triangles ⟨0, 0⟩ vs, cycPairs_map, List.map_map]
    congr 3
    apply List.map_congr_left
    intro e _
    simp only [leftArea2, shiftP, Function.comp, Prod.map]
    ring
  · rw [polyArea_eq, polyArea_eq, ((cycPairs_rotate vs n).map _).sum_eq]
  · rw [polyArea_eq, polyArea_eq, ((cycPairs_reverse vs).map _).sum_eq, List.map_map]
    induction cycPairs vs with
    | nil => simp
    | cons a l ih =>
      simp only [List.map_cons, List.sum_cons, Function.comp, Prod.swap]
      rw [add_div, ih]; ring

/-- **C51** (the documented sign) is false: for every polygon that winds *counter-clockwise* around some point the
function returns a negative number, and for every one that winds clockwise a positive one. -/
theorem C51_refuted_sign (o : P ℝ) (vs : List (P ℝ)) (hne : vs ≠ []) :
    ((∀ e ∈ cycPairs vs, 0 < leftArea2 o e.1 e.2) → polyArea vs < 0) ∧
      ((∀ e ∈ cycPairs vs, leftArea2 o e.1 e.2 < 0) → 0 < polyArea vs) := by
  have hpos : ∀ (f : P ℝ × P ℝ → ℝ) (l : List (P ℝ × P ℝ)), l ≠ [] → (∀ e ∈ l, 0 < f e) → 0 < (l.map f).sum := by
    intro f l
    induction l with
    | nil => intro h; exact absurd rfl h
    | cons a l ih =>
      intro _ h
      simp only [List.map_cons, List.sum_cons]
      have ha := h a List.mem_cons_self
      cases l with
      | nil => simpa using ha
      | cons b l =>
        have := ih (by simp) (fun e he => h e (List.mem_cons_of_mem _ he))
        linarith
  have hc : cycPairs vs ≠ [] := by
    cases vs with
    | nil => exact absurd rfl hne
    | cons v vs => rw [cycPairs_cons]; simp
  rw [polyArea_triangles o]
  constructor
  · intro h
    have := hpos (fun e => leftArea2 o e.1 e.2) _ hc h
    linarith
  · intro h
    have := hpos (fun e => -leftArea2 o e.1 e.2) _ hc (fun e he => by have := h e he; linarith)
    have e2 : ((cycPairs vs).map (fun e => -leftArea2 o e.1 e.2)).sum
        = -((cycPairs vs).map (fun e => leftArea2 o e.1 e.2)).sum := by
      induction cycPairs vs with
      | nil => simp
      | cons a l ih => simp only [List.map_cons, List.sum_cons, ih]; ring
    rw [e2] at this
    linarith

/-- Non-vacuity: the counter-clockwise unit square winds left around its centre, and its `area` is `-1`. -/
example : (∀ e ∈ cycPairs [(⟨0, 0⟩ : P ℝ), ⟨1, 0⟩, ⟨1, 1⟩, ⟨0, 1⟩], 0 < leftArea2 ⟨1/2, 1/2⟩ e.1 e.2) ∧
    polyArea [(⟨0, 0⟩ : P ℚ), ⟨1, 0⟩, ⟨1, 1⟩, ⟨0, 1⟩] = -1 := by
  constructor
  · intro e he
    simp [cycPairs, pairsFrom] at he
    rcases he with rfl | rfl | rfl | rfl <;> norm_num [leftArea2]
  · decide +kernel

/-! ## C52: centroid -/

theorem centroidSums_eq (vs : List (P ℝ)) :
    centroidSums vs =
      (((cycPairs vs).map (fun e => (e.2.x + e.1.x) * (e.2.x * e.1.y - e.1.x * e.2.y))).sum,
       ((cycPairs vs).map (fun e => (e.2.y + e.1.y) * (e.2.x * e.1.y - e.1.x * e.2.y))).sum,
       ((cycPairs vs).map (fun e => e.2.x * e.1.y - e.1.x * e.2.y)).sum) := by
  have aux : ∀ (l : List (P ℝ × P ℝ)) (a b c : ℝ),
      l.foldl (fun s e => (PyFloat.add s.1 (PyFloat.mul (PyFloat.add e.2.x e.1.x) (pairCross e)),
        PyFloat.add s.2.1 (PyFloat.mul (PyFloat.add e.2.y e.1.y) (pairCross e)),
        PyFloat.add s.2.2 (pairCross e))) (a, b, c) =
      (a + (l.map (fun e => (e.2.x + e.1.x) * (e.2.x * e.1.y - e.1.x * e.2.y))).sum,
       b + (l.map (fun e => (e.2.y + e.1.y) * (e.2.x * e.1.y - e.1.x * e.2.y))).sum,
       c + (l.map (fun e => e.2.x * e.1.y - e.1.x * e.2.y)).sum) := by
    intro l
    induction l with
    | nil => intros; simp
    | cons e l ih =>
      intro a b c
      rw [List.foldl_cons, ih]
      simp [pairCross, add_assoc]
  unfold centroidSums
  rw [aux]
  simp

theorem cent_swap (l : List (P ℝ × P ℝ)) (f : P ℝ × P ℝ → ℝ) (hf : ∀ e, f e.swap = -f e) :
    ((l.map Prod.swap).map f).sum = -(l.map f).sum := by
  induction l with
  | nil => simp
  | cons a l ih => simp only [List.map_cons, List.sum_cons, ih, hf]; ring

/-- What `centroid` returns, in terms of the three sums. -/
theorem polyCentroid_eq (vs : List (P ℝ)) (h3 : 3 ≤ vs.length) (ha : polyArea vs ≠ 0) :
    polyCentroid vs = .ok ⟨(centroidSums vs).1 / ((centroidSums vs).2.2 * 3),
      (centroidSums vs).2.1 / ((centroidSums vs).2.2 * 3)⟩ := by
  have hz : (centroidSums vs).2.2 ≠ 0 := by
    rw [centroidSums_eq]
    rw [polyArea_eq] at ha
    intro h
    simp only at h
    rw [h] at ha
    simp at ha
  match vs, h3 with
  | a :: b :: c :: vs, _ =>
    simp [polyCentroid, pdiv, bind, Except.bind, pure, Except.pure, hz]

/-- **C52.** For every polygon of at least three vertices and non-zero area `centroid` succeeds, the result moves with
the polygon, and does not depend on the first vertex or on the winding. -/
theorem C52_centroid (vs : List (P ℝ)) (h3 : 3 ≤ vs.length) (ha : polyArea vs ≠ 0) (t : P ℝ) (n : Nat) :
    ∃ c, polyCentroid vs = .ok c ∧ polyCentroid (vs.map (shiftP t)) = .ok (shiftP t c) ∧
      polyCentroid (vs.rotate n) = .ok c ∧ polyCentroid vs.reverse = .ok c := by
  obtain ⟨i1, i2, i3⟩ := C51_area_invariance vs t n
  refine ⟨_, polyCentroid_eq vs h3 ha, ?_, ?_, ?_⟩
  · rw [polyCentroid_eq _ (by simpa using h3) (by rw [i1]; exact ha)]
    have hA : (centroidSums (vs.map (shiftP t))).2.2 = (centroidSums vs).2.2 := by
      have := i1
      rw [polyArea_eq, polyArea_eq] at this
      rw [centroidSums_eq, centroidSums_eq]
      simp only
      linarith
    have hz : (centroidSums vs).2.2 ≠ 0 := by
      rw [centroidSums_eq]
      rw [polyArea_eq] at ha
      intro h
      simp only at h
      rw [h] at ha
      simp at ha
    have hX : (centroidSums (vs.map (shiftP t))).1 = (centroidSums vs).1 + 3 * t.x * (centroidSums vs).2.2 := by
      rw [centroidSums_eq, centroidSums_eq]
      simp only [cycPairs_map, List.map_map]
      have : ∀ e : P ℝ × P ℝ,
          ((fun e : P ℝ × P ℝ => (e.2.x + e.1.x) * (e.2.x * e.1.y - e.1.x * e.2.y)) ∘ Prod.map (shiftP t) (shiftP t)) e
          = ((e.2.x + e.1.x) * (e.2.x * e.1.y - e.1.x * e.2.y) + 3 * t.x * (e.2.x * e.1.y - e.1.x * e.2.y)) +
            ((fun p : P ℝ => t.y * p.x ^ 2 - t.x * p.x * p.y + 2 * t.x * (t.y * p.x - t.x * p.y)) e.2 -
             (fun p : P ℝ => t.y * p.x ^ 2 - t.x * p.x * p.y + 2 * t.x * (t.y * p.x - t.x * p.y)) e.1) := by
        intro e; simp only [Function.comp, Prod.map, shiftP]; ring
      rw [List.map_congr_left (fun e _ => this e), List.sum_map_add, List.sum_map_add,
        sum_telescope (fun p : P ℝ => t.y * p.x ^ 2 - t.x * p.x * p.y + 2 * t.x * (t.y * p.x - t.x * p.y)),
        List.sum_map_mul_left]
      ring
    have hY : (centroidSums (vs.map (shiftP t))).2.1 = (centroidSums vs).2.1 + 3 * t.y * (centroidSums vs).2.2 := by
      rw [centroidSums_eq, centroidSums_eq]
      simp only [cycPairs_map, List.map_map]
      have : ∀ e : P ℝ × P ℝ,
          ((fun e : P ℝ × P ℝ => (e.2.y + e.1.y) * (e.2.x * e.1.y - e.1.x * e.2.y)) ∘ Prod.map (shiftP t) (shiftP t)) e
          = ((e.2.y + e.1.y) * (e.2.x * e.1.y - e.1.x * e.2.y) + 3 * t.y * (e.2.x * e.1.y - e.1.x * e.2.y)) +
            ((fun p : P ℝ => -t.x * p.y ^ 2 + t.y * p.x * p.y + 2 * t.y * (t.y * p.x - t.x * p.y)) e.2 -
             (fun p : P ℝ => -t.x * p.y ^ 2 + t.y * p.x * p.y + 2 * t.y * (t.y * p.x - t.x * p.y)) e.1) := by
        intro e; simp only [Function.comp, Prod.map, shiftP]; ring
      rw [List.map_congr_left (fun e _ => this e), List.sum_map_add, List.sum_map_add,
        sum_telescope (fun p : P ℝ => -t.x * p.y ^ 2 + t.y * p.x * p.y + 2 * t.y * (t.y * p.x - t.x * p.y)),
        List.sum_map_mul_left]
      ring
    rw [hA, hX, hY]
    congr 1
    apply P.ext_real <;> simp only [shiftP] <;> field_simp
  · rw [polyCentroid_eq _ (by simpa using h3) (by rw [i2]; exact ha)]
    have : centroidSums (vs.rotate n) = centroidSums vs := by
      rw [centroidSums_eq, centroidSums_eq]
      rw [((cycPairs_rotate vs n).map _).sum_eq, ((cycPairs_rotate vs n).map _).sum_eq,
        ((cycPairs_rotate vs n).map _).sum_eq]
    rw [this]
  · rw [polyCentroid_eq _ (by simpa using h3) (by rw [i3]; simpa using ha)]
    have : centroidSums vs.reverse = (-(centroidSums vs).1, -(centroidSums vs).2.1, -(centroidSums vs).2.2) := by
      rw [centroidSums_eq, centroidSums_eq]
      rw [((cycPairs_reverse vs).map _).sum_eq, ((cycPairs_reverse vs).map _).sum_eq,
        ((cycPairs_reverse vs).map _).sum_eq]
      rw [cent_swap _ _ (by intro e; simp only [Prod.swap]; ring), cent_swap _ _ (by intro e; simp only [Prod.swap]; ring),
        cent_swap _ _ (by intro e; simp only [Prod.swap]; ring)]
    rw [this]
    simp only
    congr 2 <;> rw [neg_mul, neg_div_neg_eq]

/-- Non-vacuity, and the value really is the centre of mass of a triangle. -/
example : polyCentroid [(⟨0, 0⟩ : P ℚ), ⟨3, 0⟩, ⟨0, 3⟩] = .ok ⟨1, 1⟩ ∧
    polyArea [(⟨0, 0⟩ : P ℚ), ⟨3, 0⟩, ⟨0, 3⟩] ≠ 0 := by decide +kernel

/-- **C52** (small cases).  One vertex is its own centroid and two vertices give the midpoint. -/
theorem C52_centroid_small (p q : P ℝ) :
    polyCentroid [p] = .ok p ∧ polyCentroid [p, q] = .ok ⟨(p.x + q.x) / 2, (p.y + q.y) / 2⟩ := by
  refine ⟨rfl, ?_⟩
  show Except.ok (Line.midpoint ⟨p, q⟩) = _
  congr 1
  apply P.ext_real <;> simp [Line.midpoint, P.add, P.mul] <;> ring

/-- **C52** (value).  The centroid of a triangle of non-zero area is the mean of its vertices. -/
theorem C52_centroid_triangle (a b c : P ℝ) (h : polyArea [a, b, c] ≠ 0) :
    polyCentroid [a, b, c] = .ok ⟨(a.x + b.x + c.x) / 3, (a.y + b.y + c.y) / 3⟩ := by
  rw [polyCentroid_eq _ (by simp) h]
  have hz : (centroidSums [a, b, c]).2.2 ≠ 0 := by
    rw [centroidSums_eq]
    rw [polyArea_eq] at h
    intro h'
    simp only at h'
    rw [h'] at h
    simp at h
  rw [centroidSums_eq] at hz ⊢
  simp only [cycPairs, List.getLast?, pairsFrom, List.map_cons, List.map_nil, List.sum_cons, List.sum_nil,
    List.getLast] at hz ⊢
  congr 2
  · rw [div_eq_div_iff (mul_ne_zero hz (by norm_num)) (by norm_num)]; ring
  · rw [div_eq_div_iff (mul_ne_zero hz (by norm_num)) (by norm_num)]; ring

/-! ## C53: point in polygon -/

/-- The test is the parity of the number of crossed edges. -/
theorem pointInside_parity (vs : List (P ℝ)) (p : P ℝ) :
    polyPointInside vs p = decide (((cycPairs vs).countP (edgeCrosses p)) % 2 = 1) := by
  have aux : ∀ (l : List (P ℝ × P ℝ)) (s : Bool),
      l.foldl (fun s e => if edgeCrosses p e then !s else s) s
        = (s ^^ decide ((l.countP (edgeCrosses p)) % 2 = 1)) := by
    intro l
    induction l with
    | nil => intro s; simp
    | cons e l ih =>
      intro s
      rw [List.foldl_cons, ih, List.countP_cons]
      by_cases h : edgeCrosses p e = true
      · simp only [h, if_true]
        rcases Nat.mod_two_eq_zero_or_one (l.countP (edgeCrosses p)) with h2 | h2
        · have h3 : (l.countP (edgeCrosses p) + 1) % 2 = 1 := by omega
          simp [h2, h3]
        · have h3 : (l.countP (edgeCrosses p) + 1) % 2 = 0 := by omega
          simp [h2, h3]
      · simp [h]
  unfold polyPointInside
  rw [aux]
  simp

/-- Specification: the half-open rule.  The edge `a b` crosses the ray going right from `p` iff its end points are on
different sides of the horizontal through `p` (a point on it counting as below) and the crossing is to the right of `p`. -/
theorem edgeCrosses_iff (p : P ℝ) (e : P ℝ × P ℝ) :
    edgeCrosses p e = true ↔
      (p.y < e.2.y ∧ ¬ p.y < e.1.y ∧ (p.x - e.2.x) * (e.2.y - e.1.y) < (e.1.x - e.2.x) * (e.2.y - p.y)) ∨
      (¬ p.y < e.2.y ∧ p.y < e.1.y ∧ (p.x - e.2.x) * (e.1.y - e.2.y) < (e.1.x - e.2.x) * (p.y - e.2.y)) := by
  unfold edgeCrosses
  simp only [real_lt, real_add, real_sub, real_mul, real_div, Bool.and_eq_true, bne_iff_ne, ne_eq, decide_eq_true_eq,
    decide_eq_decide]
  by_cases h1 : p.y < e.2.y <;> by_cases h2 : p.y < e.1.y
  · simp [h1, h2]
  · have h : e.1.y - e.2.y < 0 := by linarith [not_lt.1 h2]
    simp only [h1, h2, not_false_eq_true, true_and, not_true_eq_false, false_and, or_false, iff_false, and_true,
      true_iff, not_not]
    rw [← sub_lt_iff_lt_add, lt_div_iff_of_neg h]
    constructor <;> intro h3 <;> nlinarith
  · have h : 0 < e.1.y - e.2.y := by linarith [not_lt.1 h1]
    simp only [h1, h2, not_false_eq_true, true_and, false_and, false_or, iff_true, and_true]
    rw [← sub_lt_iff_lt_add, lt_div_iff₀ h]
  · simp [h1, h2]

theorem edgeCrosses_swap (p : P ℝ) (e : P ℝ × P ℝ) : edgeCrosses p e.swap = edgeCrosses p e := by
  rw [Bool.eq_iff_iff, edgeCrosses_iff, edgeCrosses_iff]
  simp only [Prod.swap]
  constructor
  · rintro (⟨h1, h2, h3⟩ | ⟨h1, h2, h3⟩)
    · right; exact ⟨h2, h1, by nlinarith⟩
    · left; exact ⟨h2, h1, by nlinarith⟩
  · rintro (⟨h1, h2, h3⟩ | ⟨h1, h2, h3⟩)
    · right; exact ⟨h2, h1, by nlinarith⟩
    · left; exact ⟨h2, h1, by nlinarith⟩

theorem edgeCrosses_shift (t p : P ℝ) (e : P ℝ × P ℝ) :
    edgeCrosses (shiftP t p) (Prod.map (shiftP t) (shiftP t) e) = edgeCrosses p e := by
  rw [Bool.eq_iff_iff, edgeCrosses_iff, edgeCrosses_iff]
  simp only [Prod.map, shiftP, add_lt_add_iff_right, add_sub_add_right_eq_sub]

/-- **C53** (invariance).  The answer does not depend on the first vertex or the winding and is invariant under
translation of polygon and point together. -/
theorem C53_point_inside_invariance (vs : List (P ℝ)) (p t : P ℝ) (n : Nat) :
    polyPointInside (vs.rotate n) p = polyPointInside vs p ∧ polyPointInside vs.reverse p = polyPointInside vs p ∧
      polyPointInside (vs.map (shiftP t)) (shiftP t p) = polyPointInside vs p := by
  rw [pointInside_parity, pointInside_parity, pointInside_parity, pointInside_parity]
  refine ⟨?_, ?_, ?_⟩
  · rw [(cycPairs_rotate vs n).countP_eq]
  · rw [(cycPairs_reverse vs).countP_eq, List.countP_map]
    rw [List.countP_congr (l := cycPairs vs) (p := edgeCrosses p ∘ Prod.swap) (q := edgeCrosses p)]
    intro e _
    rw [Function.comp, edgeCrosses_swap]
  · rw [cycPairs_map, List.countP_map]
    rw [List.countP_congr (l := cycPairs vs) (q := edgeCrosses p)]
    intro e _
    rw [Function.comp, edgeCrosses_shift]

/-- The number of edges that change sides of a horizontal line is even. -/
theorem sides_even {α : Type} (f : α → Bool) (vs : List α) :
    ((cycPairs vs).countP (fun e => f e.1 != f e.2)) % 2 = 0 := by
  have aux : ∀ (a : α) (l : List α),
      ((pairsFrom a l).countP (fun e => f e.1 != f e.2)) % 2 = if f a = f (l.getLastD a) then 0 else 1 := by
    intro a l
    induction l generalizing a with
    | nil => simp [pairsFrom]
    | cons c l ih =>
      have hc := ih c
      rw [List.getLastD_cons]
      generalize hz : f (l.getLastD c) = z at hc ⊢
      simp only [pairsFrom, List.countP_cons]
      cases hac : f a <;> cases hcc : f c <;> cases z <;> simp [hac, hcc] at hc ⊢ <;> omega
  cases vs with
  | nil => rfl
  | cons v vs =>
    rw [cycPairs_cons, List.countP_cons]
    have h := aux v vs
    simp only at h ⊢
    generalize f (vs.getLastD v) = z at h ⊢
    generalize (pairsFrom v vs).countP _ = n at h ⊢
    cases h1 : f v <;> cases z <;> simp [h1] at h ⊢ <;> omega

/-- **C53** (outside).  A point that is strictly left of, or at or right of, all vertices, or below or at/above all of
them, is never reported inside; in particular every point outside the bounding box. -/
theorem C53_point_inside_outside (vs : List (P ℝ)) (p : P ℝ)
    (h : (∀ v ∈ vs, p.x < v.x) ∨ (∀ v ∈ vs, v.x ≤ p.x) ∨ (∀ v ∈ vs, p.y < v.y) ∨ (∀ v ∈ vs, v.y ≤ p.y)) :
    polyPointInside vs p = false := by
  rw [pointInside_parity]
  have hfalse : (∀ e ∈ cycPairs vs, edgeCrosses p e = false) →
      decide (((cycPairs vs).countP (edgeCrosses p)) % 2 = 1) = false := by
    intro h
    rw [List.countP_eq_zero.2 (fun e he => by rw [h e he]; simp)]
    rfl
  rcases h with h | h | h | h
  · have : (cycPairs vs).countP (edgeCrosses p)
        = (cycPairs vs).countP (fun e => (decide (p.y < e.1.y)) != (decide (p.y < e.2.y))) := by
      apply List.countP_congr
      intro e he
      obtain ⟨m1, m2⟩ := cycPairs_mem he
      have x1 := h _ m1
      have x2 := h _ m2
      rw [edgeCrosses_iff]
      simp only [bne_iff_ne, ne_eq, decide_eq_decide]
      constructor
      · rintro (⟨a, b, -⟩ | ⟨a, b, -⟩) <;> tauto
      · intro hne
        by_cases h1 : p.y < e.2.y <;> by_cases h2 : p.y < e.1.y
        · tauto
        · refine .inl ⟨h1, h2, ?_⟩
          push Not at h2
          nlinarith [mul_pos (sub_pos.2 x2) (sub_pos.2 (lt_of_le_of_lt h2 h1)),
            mul_nonneg (sub_nonneg.2 x1.le) (sub_nonneg.2 h1.le), mul_nonneg (sub_nonneg.2 x2.le) (sub_nonneg.2 h2),
            mul_pos (sub_pos.2 x1) (sub_pos.2 h1)]
        · refine .inr ⟨h1, h2, ?_⟩
          push Not at h1
          nlinarith [mul_pos (sub_pos.2 x2) (sub_pos.2 h2), mul_nonneg (sub_nonneg.2 x1.le) (sub_nonneg.2 h1),
            mul_nonneg (sub_nonneg.2 x2.le) (sub_nonneg.2 h1)]
        · tauto
    rw [this]
    have := sides_even (fun v : P ℝ => decide (p.y < v.y)) vs
    rw [this]; rfl
  · apply hfalse
    intro e he
    obtain ⟨m1, m2⟩ := cycPairs_mem he
    have x1 := h _ m1
    have x2 := h _ m2
    rw [← Bool.not_eq_true, edgeCrosses_iff]
    rintro (⟨a, b, c⟩ | ⟨a, b, c⟩)
    · push Not at b
      nlinarith [mul_nonneg (sub_nonneg.2 x2) (sub_nonneg.2 b), mul_nonneg (sub_nonneg.2 x1) (sub_nonneg.2 a.le)]
    · push Not at a
      nlinarith [mul_nonneg (sub_nonneg.2 x2) (sub_nonneg.2 b.le), mul_nonneg (sub_nonneg.2 x1) (sub_nonneg.2 a)]
  · apply hfalse
    intro e he
    obtain ⟨m1, m2⟩ := cycPairs_mem he
    rw [← Bool.not_eq_true, edgeCrosses_iff]
    rintro (⟨a, b, c⟩ | ⟨a, b, c⟩)
    · exact b (h _ m1)
    · exact a (h _ m2)
  · apply hfalse
    intro e he
    obtain ⟨m1, m2⟩ := cycPairs_mem he
    have y1 := h _ m1
    have y2 := h _ m2
    rw [← Bool.not_eq_true, edgeCrosses_iff]
    rintro (⟨a, b, c⟩ | ⟨a, b, c⟩) <;> linarith

/-- Non-vacuity: `True` is possible, and a point right of the square is covered by the theorem. -/
example : polyPointInside [(⟨0, 0⟩ : P ℚ), ⟨2, 0⟩, ⟨2, 2⟩, ⟨0, 2⟩] ⟨1, 1⟩ = true ∧
    polyPointInside [(⟨0, 0⟩ : P ℚ), ⟨2, 0⟩, ⟨2, 2⟩, ⟨0, 2⟩] ⟨3, 1⟩ = false := by decide +kernel

end Verif.Geom
