import Verif.Ext.Quasink
import Verif.Geom.Props4

/-!
# C155: inset tiles
-/

set_option linter.unusedSectionVars false

namespace Verif.Ext
open Verif PyFloat PyTrig Geom

/-- Specification: how far a point lies to the left (`turn = 1`) or right (`turn = -1`) of a line. -/
noncomputable def depth (turn : ℝ) (l : Line ℝ) (p : P ℝ) : ℝ := turn * side l p / segLen l

/-- Specification: a tile: four corners of a parallelogram, in order around it.  `turn` is 1 if the corners run around it to the left and -1 if to the right. -/
structure IsParallelogram (a b c d : P ℝ) (turn : ℝ) : Prop where
  x : a.x + c.x = b.x + d.x
  y : a.y + c.y = b.y + d.y
  turn : (turn = 1 ∧ 0 < side ⟨a, b⟩ c) ∨ (turn = -1 ∧ side ⟨a, b⟩ c < 0)

/-- Specification: `p` is the corner of the tile moved inwards: at the depth `k` from the two sides it belongs to, and at least as deep from the other two. -/
def CornerAt (turn k : ℝ) (l l' m m' : Line ℝ) (p : P ℝ) : Prop := depth turn l p = k ∧ depth turn l' p = k ∧ k ≤ depth turn m p ∧ k ≤ depth turn m' p

theorem distanceToPoint_line (eps : ℝ) (heps : 0 < eps) (l : Line ℝ) (p : P ℝ) (h : eps ≤ segLen l) : l.distanceToPoint eps p = |side l p| / segLen l := by
  have hpos : 0 < segLen l := lt_of_lt_of_le heps h
  have hsq := segLen_sq l
  have hnn : ¬ ((l.p2.x - l.p1.x) ^ 2 + (l.p2.y - l.p1.y) ^ 2 < eps ^ 2) := by
    rw [← hsq, not_lt]
    exact pow_le_pow_left₀ heps.le h 2
  unfold Line.distanceToPoint
  rw [distance_real]
  unfold Line.normalProjectionPoint
  dsimp only
  rw [normProj_real]
  simp only [P.sub, P.add, P.mul, real_sub, real_add, real_mul, Bool.false_and, Bool.false_eq_true, if_false, hnn]
  rw [← hsq]
  rw [show |side l p| / segLen l = |side l p / segLen l| by rw [abs_div, abs_of_pos hpos], ← Real.sqrt_sq_eq_abs]
  congr 1
  unfold sqDist side leftArea2
  dsimp only
  field_simp
  linear_combination ((p.y - l.p1.y) ^ 2 * (segLen l ^ 2) + (p.x - l.p1.x) ^ 2 * (segLen l ^ 2) - ((p.x - l.p1.x) * (l.p2.x - l.p1.x) + (p.y - l.p1.y) * (l.p2.y - l.p1.y)) ^ 2) * hsq

theorem offset_side (eps : ℝ) (heps : 0 < eps) (l : Line ℝ) (k : ℝ) (hk : eps ≤ |k|) (hl : eps ≤ segLen l) :
    (∀ t, side l (segPt (l.offset eps k) t) = k * segLen l) ∧ ∀ o, dirCross (l.offset eps k) o = dirCross l o ∧ dirCross o (l.offset eps k) = dirCross o l := by
  obtain ⟨v, h1, -, -, h4, -⟩ := (C58_offset eps heps l k).2 hk hl
  rw [h1]
  refine ⟨fun t => ?_, fun o => ⟨?_, ?_⟩⟩
  · rw [← h4]
    simp only [side, leftArea2, segPt, shiftL, shiftP]
    ring
  · simp only [dirCross, shiftL, shiftP]; ring
  · simp only [dirCross, shiftL, shiftP]; ring

theorem offset_corner (eps : ℝ) (heps : 0 < eps) (l o : Line ℝ) (k : ℝ) (hk : eps ≤ |k|) (hl : eps ≤ segLen l) (ho : eps ≤ segLen o) (hc : eps ≤ |dirCross l o|) :
    ∃ p, (l.offset eps k).intersection eps (o.offset eps k) = some p ∧ side l p = k * segLen l ∧ side o p = k * segLen o := by
  obtain ⟨l1, l2⟩ := offset_side eps heps l k hk hl
  obtain ⟨o1, o2⟩ := offset_side eps heps o k hk ho
  obtain ⟨i1, i2⟩ := C55_intersection eps heps (l.offset eps k) (o.offset eps k) false false false
  cases hi : (l.offset eps k).intersection eps (o.offset eps k) with
  | none =>
    rcases i2 hi with h | ⟨s, t, -, h | h⟩
    · rw [(l2 _).1, (o2 _).2] at h
      exact absurd hc (not_le.2 h)
    · simp at h
    · simp at h
  | some p =>
    obtain ⟨s, t, hs, ht, -⟩ := i1 p hi
    exact ⟨p, rfl, by rw [hs]; exact l1 s, by rw [ht]; exact o1 t⟩

/-- **C155 (inset tiles).** A tile whose heights are at least twice the inset gets an inset tile, whose corners lie inside at exactly the inset from the two sides they belong to, and no closer to the others; a tile that is less high gets
none.  (The sides and the area of the tile and the inset are not smaller than the tolerance; missing: smaller ones, see `C155_corners_refuted`.) -/
theorem C155_inset_partial (eps : ℝ) (heps : 0 < eps) (a b c d : P ℝ) (turn k : ℝ) (ht : IsParallelogram a b c d turn) (hk : eps ≤ k) (h1 : eps ≤ segLen ⟨a, b⟩) (h2 : eps ≤ segLen ⟨b, c⟩) (h3 : eps ≤ |side ⟨a, b⟩ c|) :
    (2 * k ≤ depth turn ⟨a, b⟩ c → 2 * k ≤ depth turn ⟨b, c⟩ a → ∃ p1 p2 p3 p4, insetPolygon eps a b c d k = some [some p1, some p2, some p3, some p4] ∧
      CornerAt turn k ⟨d, a⟩ ⟨a, b⟩ ⟨b, c⟩ ⟨c, d⟩ p1 ∧ CornerAt turn k ⟨a, b⟩ ⟨b, c⟩ ⟨c, d⟩ ⟨d, a⟩ p2 ∧
      CornerAt turn k ⟨b, c⟩ ⟨c, d⟩ ⟨d, a⟩ ⟨a, b⟩ p3 ∧ CornerAt turn k ⟨c, d⟩ ⟨d, a⟩ ⟨a, b⟩ ⟨b, c⟩ p4) ∧
    (depth turn ⟨a, b⟩ c < 2 * k ∨ depth turn ⟨b, c⟩ a < 2 * k → insetPolygon eps a b c d k = none) := by
  have hdx : d.x = a.x + c.x - b.x := by linarith [ht.x]
  have hdy : d.y = a.y + c.y - b.y := by linarith [ht.y]
  have l1 : 0 < segLen ⟨a, b⟩ := lt_of_lt_of_le heps h1
  have l2 : 0 < segLen ⟨b, c⟩ := lt_of_lt_of_le heps h2
  have hl3 : segLen ⟨c, d⟩ = segLen ⟨a, b⟩ := by unfold segLen sqDist; congr 1; dsimp only; rw [hdx, hdy]; ring
  have hl4 : segLen ⟨d, a⟩ = segLen ⟨b, c⟩ := by unfold segLen sqDist; congr 1; dsimp only; rw [hdx, hdy]; ring
  have hs2 : side ⟨b, c⟩ a = side ⟨a, b⟩ c := by simp only [side, leftArea2]; ring
  have ht2 : turn * turn = 1 := by rcases ht.turn with ⟨h, -⟩ | ⟨h, -⟩ <;> rw [h] <;> norm_num
  have habs : |side ⟨a, b⟩ c| = turn * side ⟨a, b⟩ c := by
    rcases ht.turn with ⟨h, hs⟩ | ⟨h, hs⟩
    · rw [h, abs_of_pos hs]; ring
    · rw [h, abs_of_neg hs]; ring
  have hside : ofInt (Line.whichSide eps ⟨a, b⟩ c) = turn := by
    unfold Line.whichSide
    dsimp only
    rw [show (P.sub b a).cross (P.sub c a) = side ⟨a, b⟩ c from cross_side ⟨a, b⟩ c]
    rcases ht.turn with ⟨h, hs⟩ | ⟨h, hs⟩
    · simp [h, hs.le]
    · simp [h, not_le.2 hs]
  have d1 : Line.distanceToPoint eps ⟨a, b⟩ c = depth turn ⟨a, b⟩ c := by rw [distanceToPoint_line eps heps _ _ h1, habs]; rfl
  have d2 : Line.distanceToPoint eps ⟨b, c⟩ a = depth turn ⟨b, c⟩ a := by rw [distanceToPoint_line eps heps _ _ h2, hs2, habs]; unfold depth; rw [hs2]
  constructor
  · intro g1 g2
    have hkk : eps ≤ |k * turn| := by
      rw [abs_mul]
      have : |turn| = 1 := by rcases ht.turn with ⟨h, -⟩ | ⟨h, -⟩ <;> rw [h] <;> norm_num
      rw [this, mul_one]
      exact hk.trans (le_abs_self k)
    have c41 : dirCross ⟨d, a⟩ ⟨a, b⟩ = side ⟨a, b⟩ c := by simp only [dirCross, side, leftArea2]; rw [hdx, hdy]; ring
    have c12 : dirCross ⟨a, b⟩ ⟨b, c⟩ = side ⟨a, b⟩ c := by simp only [dirCross, side, leftArea2]; ring
    have c23 : dirCross ⟨b, c⟩ ⟨c, d⟩ = side ⟨a, b⟩ c := by simp only [dirCross, side, leftArea2]; rw [hdx, hdy]; ring
    have c34 : dirCross ⟨c, d⟩ ⟨d, a⟩ = side ⟨a, b⟩ c := by simp only [dirCross, side, leftArea2]; rw [hdx, hdy]; ring
    obtain ⟨p1, i1, s1, s1'⟩ := offset_corner eps heps ⟨d, a⟩ ⟨a, b⟩ (k * turn) hkk (hl4 ▸ h2) h1 (c41 ▸ h3)
    obtain ⟨p2, i2, s2, s2'⟩ := offset_corner eps heps ⟨a, b⟩ ⟨b, c⟩ (k * turn) hkk h1 h2 (c12 ▸ h3)
    obtain ⟨p3, i3, s3, s3'⟩ := offset_corner eps heps ⟨b, c⟩ ⟨c, d⟩ (k * turn) hkk h2 (hl3 ▸ h1) (c23 ▸ h3)
    obtain ⟨p4, i4, s4, s4'⟩ := offset_corner eps heps ⟨c, d⟩ ⟨d, a⟩ (k * turn) hkk (hl3 ▸ h1) (hl4 ▸ h2) (c34 ▸ h3)
    have e13 : ∀ p, side ⟨a, b⟩ p + side ⟨c, d⟩ p = side ⟨a, b⟩ c := by intro p; simp only [side, leftArea2]; rw [hdx, hdy]; ring
    have e24 : ∀ p, side ⟨b, c⟩ p + side ⟨d, a⟩ p = side ⟨b, c⟩ a := by intro p; simp only [side, leftArea2]; rw [hdx, hdy]; ring
    have on : ∀ (l : Line ℝ) (p : P ℝ), 0 < segLen l → side l p = k * turn * segLen l → depth turn l p = k := by
      intro l p hl hs
      unfold depth
      rw [hs, show turn * (k * turn * segLen l) = k * segLen l * (turn * turn) by ring, ht2, mul_one, mul_div_assoc, div_self hl.ne', mul_one]
    have sum13 : ∀ p, depth turn ⟨a, b⟩ p + depth turn ⟨c, d⟩ p = depth turn ⟨a, b⟩ c := by
      intro p; unfold depth; rw [hl3, ← add_div, ← mul_add, e13]
    have sum24 : ∀ p, depth turn ⟨b, c⟩ p + depth turn ⟨d, a⟩ p = depth turn ⟨b, c⟩ a := by
      intro p; unfold depth; rw [hl4, ← add_div, ← mul_add, e24]
    have l3 : 0 < segLen ⟨c, d⟩ := hl3 ▸ l1
    have l4 : 0 < segLen ⟨d, a⟩ := hl4 ▸ l2
    have a1 := on _ _ l4 s1
    have a1' := on _ _ l1 s1'
    have a2 := on _ _ l1 s2
    have a2' := on _ _ l2 s2'
    have a3 := on _ _ l2 s3
    have a3' := on _ _ l3 s3'
    have a4 := on _ _ l3 s4
    have a4' := on _ _ l4 s4'
    refine ⟨p1, p2, p3, p4, ?_, ⟨a1, a1', ?_, ?_⟩, ⟨a2, a2', ?_, ?_⟩, ⟨a3, a3', ?_, ?_⟩, ⟨a4, a4', ?_, ?_⟩⟩
    · unfold insetPolygon
      dsimp only
      rw [d1, d2, hside]
      have : ((k *. ofInt 2 <=. depth turn ⟨a, b⟩ c) && (k *. ofInt 2 <=. depth turn ⟨b, c⟩ a)) = true := by
        simp only [real_le, real_mul, real_ofInt, Int.cast_ofNat, Bool.and_eq_true, decide_eq_true_eq]
        exact ⟨by linarith, by linarith⟩
      rw [if_pos this]
      simp only [real_mul]
      rw [i1, i2, i3, i4]
    · linarith [sum24 p1]
    · linarith [sum13 p1]
    · linarith [sum13 p2]
    · linarith [sum24 p2]
    · linarith [sum24 p3]
    · linarith [sum13 p3]
    · linarith [sum13 p4]
    · linarith [sum24 p4]
  · intro h
    unfold insetPolygon
    dsimp only
    rw [d1, d2]
    rw [if_neg]
    simp only [real_le, real_mul, real_ofInt, Int.cast_ofNat, Bool.and_eq_true, decide_eq_true_eq, not_and_or, not_le]
    rcases h with h | h
    · left; linarith
    · right; linarith

/-- **C155 (refuted): corners that are missing.**  The tolerance for parallel lines is compared with the area of the tile: a tile whose area is below it gets `None` for every corner of its inset tile, also where it is high enough. -/
theorem C155_corners_refuted (eps : ℝ) (heps : 0 < eps) (a b c d : P ℝ) (turn k : ℝ) (ht : IsParallelogram a b c d turn) (hk : eps ≤ k) (h1 : eps ≤ segLen ⟨a, b⟩) (h2 : eps ≤ segLen ⟨b, c⟩) (h3 : |side ⟨a, b⟩ c| < eps)
    (g1 : 2 * k ≤ depth turn ⟨a, b⟩ c) (g2 : 2 * k ≤ depth turn ⟨b, c⟩ a) : insetPolygon eps a b c d k = some [none, none, none, none] := by
  have hdx : d.x = a.x + c.x - b.x := by linarith [ht.x]
  have hdy : d.y = a.y + c.y - b.y := by linarith [ht.y]
  have hl3 : segLen ⟨c, d⟩ = segLen ⟨a, b⟩ := by unfold segLen sqDist; congr 1; dsimp only; rw [hdx, hdy]; ring
  have hl4 : segLen ⟨d, a⟩ = segLen ⟨b, c⟩ := by unfold segLen sqDist; congr 1; dsimp only; rw [hdx, hdy]; ring
  have hs2 : side ⟨b, c⟩ a = side ⟨a, b⟩ c := by simp only [side, leftArea2]; ring
  have habs : |side ⟨a, b⟩ c| = turn * side ⟨a, b⟩ c := by
    rcases ht.turn with ⟨h, hs⟩ | ⟨h, hs⟩
    · rw [h, abs_of_pos hs]; ring
    · rw [h, abs_of_neg hs]; ring
  have hside : ofInt (Line.whichSide eps ⟨a, b⟩ c) = turn := by
    unfold Line.whichSide
    dsimp only
    rw [show (P.sub b a).cross (P.sub c a) = side ⟨a, b⟩ c from cross_side ⟨a, b⟩ c]
    rcases ht.turn with ⟨h, hs⟩ | ⟨h, hs⟩
    · simp [h, hs.le]
    · simp [h, not_le.2 hs]
  have d1 : Line.distanceToPoint eps ⟨a, b⟩ c = depth turn ⟨a, b⟩ c := by rw [distanceToPoint_line eps heps _ _ h1, habs]; rfl
  have d2 : Line.distanceToPoint eps ⟨b, c⟩ a = depth turn ⟨b, c⟩ a := by rw [distanceToPoint_line eps heps _ _ h2, hs2, habs]; unfold depth; rw [hs2]
  have hkk : eps ≤ |k * turn| := by
    rw [abs_mul]
    have : |turn| = 1 := by rcases ht.turn with ⟨h, -⟩ | ⟨h, -⟩ <;> rw [h] <;> norm_num
    rw [this, mul_one]
    exact hk.trans (le_abs_self k)
  have c41 : dirCross ⟨d, a⟩ ⟨a, b⟩ = side ⟨a, b⟩ c := by simp only [dirCross, side, leftArea2]; rw [hdx, hdy]; ring
  have c12 : dirCross ⟨a, b⟩ ⟨b, c⟩ = side ⟨a, b⟩ c := by simp only [dirCross, side, leftArea2]; ring
  have c23 : dirCross ⟨b, c⟩ ⟨c, d⟩ = side ⟨a, b⟩ c := by simp only [dirCross, side, leftArea2]; rw [hdx, hdy]; ring
  have c34 : dirCross ⟨c, d⟩ ⟨d, a⟩ = side ⟨a, b⟩ c := by simp only [dirCross, side, leftArea2]; rw [hdx, hdy]; ring
  have no : ∀ l o : Line ℝ, eps ≤ segLen l → eps ≤ segLen o → dirCross l o = side ⟨a, b⟩ c → (l.offset eps (k * turn)).intersection eps (o.offset eps (k * turn)) = none := by
    intro l o hl ho hc
    have e : (l.offset eps (k * turn)).denom (o.offset eps (k * turn)) = side ⟨a, b⟩ c := by
      rw [← hc, ← ((offset_side eps heps o _ hkk ho).2 l).2, ← ((offset_side eps heps l _ hkk hl).2 _).1]
      unfold Line.denom dirCross
      simp only [real_sub, real_mul]
      ring
    unfold Line.intersection Line.intersectionMu
    dsimp only
    rw [e]
    simp [h3]
  unfold insetPolygon
  dsimp only
  rw [d1, d2, hside]
  have : ((k *. ofInt 2 <=. depth turn ⟨a, b⟩ c) && (k *. ofInt 2 <=. depth turn ⟨b, c⟩ a)) = true := by
    simp only [real_le, real_mul, real_ofInt, Int.cast_ofNat, Bool.and_eq_true, decide_eq_true_eq]
    exact ⟨by linarith, by linarith⟩
  rw [if_pos this]
  simp only [real_mul]
  rw [no _ _ (hl4 ▸ h2) h1 c41, no _ _ h1 h2 c12, no _ _ h2 (hl3 ▸ h1) c23, no _ _ (hl3 ▸ h1) (hl4 ▸ h2) c34]

/-- Non-vacuity: the unit square is inset by a quarter, and not by one. -/
example : insetPolygon (1/1000 : ℚ) ⟨0, 0⟩ ⟨1, 0⟩ ⟨1, 1⟩ ⟨0, 1⟩ (1/4) = some [some ⟨1/4, 1/4⟩, some ⟨3/4, 1/4⟩, some ⟨3/4, 3/4⟩, some ⟨1/4, 3/4⟩] ∧
    insetPolygon (1/1000 : ℚ) ⟨0, 0⟩ ⟨1, 0⟩ ⟨1, 1⟩ ⟨0, 1⟩ 1 = none := by decide +kernel

/-- Non-vacuity of the refutation: a square with sides of 1/50 and the tolerance 1/1000, inset by 1/200. -/
example : insetPolygon (1/1000 : ℚ) ⟨0, 0⟩ ⟨1/50, 0⟩ ⟨1/50, 1/50⟩ ⟨0, 1/50⟩ (1/200) = some [none, none, none, none] := by decide +kernel

example : IsParallelogram ⟨0, 0⟩ ⟨1, 0⟩ ⟨1, 1⟩ ⟨0, 1⟩ 1 := ⟨by norm_num, by norm_num, .inl ⟨rfl, by norm_num [side, leftArea2]⟩⟩

/-! ## Layers of inset tiles -/

/-- Specification: a list of tiles with four corners each. -/
def Tiles4 (polys : List (List (P ℝ))) : Prop := ∀ t ∈ polys, ∃ a b c d, t = [a, b, c, d]

/-- Specification: the inset tile of a list of four corners. -/
noncomputable def insetOf (eps k : ℝ) : List (P ℝ) → Option (List (Option (P ℝ)))
  | [a, b, c, d] => insetPolygon eps a b c d k
  | _ => none

theorem insetLayer_eq (eps k : ℝ) : ∀ (polys : List (List (P ℝ))), Tiles4 polys → insetLayer eps k polys = .ok (polys.filterMap (insetOf eps k))
  | [], _ => rfl
  | t :: polys, h => by
    obtain ⟨a, b, c, d, rfl⟩ := h t List.mem_cons_self
    have ih := insetLayer_eq eps k polys fun t' h' => h t' (List.mem_cons_of_mem _ h')
    unfold insetLayer
    rw [ih, List.filterMap_cons]
    simp only [bind, Except.bind, pure, Except.pure, insetOf]
    cases insetPolygon eps a b c d k <;> rfl

/-- **C155 (layers).** The layers of inset tiles hold, one after another, the tiles inset by the spacing, twice the spacing, and so on, each layer with the tiles in their order. -/
theorem C155_layers (eps step : ℝ) (n : Nat) (polys : List (List (P ℝ))) (h : Tiles4 polys) :
    drawInsets eps step n polys = .ok ((List.range n).map fun (i : Nat) => polys.filterMap (insetOf eps (((i : ℝ) + 1) * step))) := by
  have key : ∀ (n : Nat) (total : ℝ), insetsFrom eps step polys n total = .ok ((List.range n).map fun (i : Nat) => polys.filterMap (insetOf eps (total + i * step))) := by
    intro n
    induction n with
    | zero => intro total; rfl
    | succ n ih =>
      intro total
      unfold insetsFrom
      rw [insetLayer_eq eps total polys h, ih]
      simp only [bind, Except.bind, pure, Except.pure]
      rw [List.range_succ_eq_map, List.map_cons, List.map_map]
      congr 2
      · norm_num
      · apply List.map_congr_left
        intro i _
        show _ = polys.filterMap (insetOf eps (total + ((i + 1 : Nat) : ℝ) * step))
        rw [show total + ((i + 1 : Nat) : ℝ) * step = total +. step + i * step by push_cast; simp only [real_add]; ring]
  unfold drawInsets
  rw [key]
  congr 1
  apply List.map_congr_left
  intro i _
  rw [show step + (i : ℝ) * step = (i + 1) * step by ring]

end Verif.Ext
