import Verif.Geom.Props3
import Mathlib.Tactic.Linarith
import Mathlib.Tactic.Ring

/-!
# C54, the whole line: simplifying a polyline moves no point of it by more than the tolerance
-/

set_option linter.unusedSectionVars false

namespace Verif.Geom
open Verif PyFloat PyTrig

/-- Specification: `rs` is `ps` without some of the inner vertices, and the vertices left out between two that are kept are all within `tol` of
the segment between these two. -/
inductive Thinned (tol : ℝ) : List (P ℝ) → List (P ℝ) → Prop
  | nil : Thinned tol [] []
  | single (p : P ℝ) : Thinned tol [p] [p]
  | step (a b : P ℝ) (mid rest rs : List (P ℝ)) (hmid : ∀ p ∈ mid, NearSegment tol a b p) (h : Thinned tol (b :: rest) (b :: rs)) :
      Thinned tol (a :: (mid ++ b :: rest)) (a :: b :: rs)

theorem Thinned.refl (tol : ℝ) : ∀ ps : List (P ℝ), Thinned tol ps ps
  | [] => .nil
  | [p] => .single p
  | a :: b :: rest => Thinned.step a b [] rest rest (by simp) (Thinned.refl tol (b :: rest))

/-- A thinning of a polyline starts where the polyline starts. -/
theorem Thinned.head {tol : ℝ} {ps rs : List (P ℝ)} (h : Thinned tol ps rs) : rs.head? = ps.head? := by
  cases h <;> rfl

/-- Thinnings of two polylines that meet in a vertex make a thinning of the whole. -/
theorem Thinned.join {tol : ℝ} {ps rs : List (P ℝ)} (h : Thinned tol ps rs) :
    ∀ (l : List (P ℝ)) (x : P ℝ) (r rs2 : List (P ℝ)), ps = l ++ [x] → Thinned tol (x :: r) (x :: rs2) → Thinned tol (l ++ x :: r) (rs ++ rs2) := by
  induction h with
  | nil => intro l x r rs2 h; simp at h
  | single p =>
    intro l x r rs2 h h2
    cases l with
    | nil => simp at h; subst h; simpa using h2
    | cons a l => simp at h
  | step a b mid rest rs hmid h ih =>
    intro l x r rs2 e h2
    cases l with
    | nil => simp at e
    | cons c l =>
      simp only [List.cons_append, List.cons.injEq] at e
      obtain ⟨rfl, e⟩ := e
      obtain ⟨l', hl⟩ : ∃ l', l = mid ++ l' := by
        have : mid <+: l ++ [x] := ⟨b :: rest, e⟩
        rcases List.prefix_concat_iff.1 this with h | h
        · exfalso
          rw [h] at e
          have := congrArg List.length e
          simp at this
        · obtain ⟨t, ht⟩ := h; exact ⟨t, ht.symm⟩
      subst hl
      rw [List.append_assoc, List.append_cancel_left_eq] at e
      have := ih l' x r rs2 e h2
      cases l' with
      | nil =>
        simp only [List.nil_append, List.cons.injEq] at e
        obtain ⟨rfl, rfl⟩ := e
        simpa using Thinned.step a b mid r (rs ++ rs2) hmid (by simpa using this)
      | cons d l' =>
        simp only [List.cons_append, List.cons.injEq] at e
        obtain ⟨rfl, e⟩ := e
        simpa using Thinned.step a b mid (l' ++ x :: r) (rs ++ rs2) hmid (by simpa using this)

theorem rdp_thinned (eps tol : ℝ) (htol : 0 ≤ tol) :
    ∀ (n : Nat) (ps : List (P ℝ)), ps.length ≤ n →
      ∃ rs, (∀ fuel, n + 1 ≤ fuel → rdp eps tol fuel ps = some rs) ∧ Thinned tol ps rs := by
  intro n
  induction n with
  | zero =>
    intro ps h
    refine ⟨ps, ?_, .refl _ _⟩
    intro fuel hf
    obtain ⟨f, rfl⟩ : ∃ f, fuel = f + 1 := ⟨fuel - 1, by omega⟩
    rw [rdp, if_pos (by omega)]
  | succ n ih =>
    intro ps hlen
    by_cases hs : ps.length < 3
    · refine ⟨ps, ?_, .refl _ _⟩
      intro fuel hf
      obtain ⟨f, rfl⟩ : ∃ f, fuel = f + 1 := ⟨fuel - 1, by omega⟩
      rw [rdp, if_pos hs]
    · obtain ⟨a, mid, b, rfl⟩ : ∃ a mid b, ps = a :: (mid ++ [b]) := by
        match ps, hs with
        | [], hs => simp at hs
        | a :: rest, hs =>
          have hr : rest ≠ [] := by rintro rfl; simp at hs
          exact ⟨a, rest.dropLast, rest.getLast hr, by rw [List.dropLast_append_getLast]⟩
      have hh : (a :: (mid ++ [b])).head? = some a := rfl
      have hl : (a :: (mid ++ [b])).getLast? = some b := by
        rw [← List.cons_append, List.getLast?_append]; simp
      have hd : ((a :: (mid ++ [b])).drop 1).dropLast = mid := by simp
      obtain ⟨f1, f2, f3⟩ := rdpFar_spec eps ⟨a, b⟩ mid 0 (0, 0)
      by_cases hm : tol < (rdpFar eps ⟨a, b⟩ mid 0 (0, 0)).1
      · by_cases h3 : (a :: (mid ++ [b])).length = 3
        · refine ⟨_, ?_, .refl _ _⟩
          intro fuel hf
          obtain ⟨f, rfl⟩ : ∃ f, fuel = f + 1 := ⟨fuel - 1, by omega⟩
          rw [rdp, if_neg hs, hh, hl]
          simp only [hd, real_lt, real_zero, decide_eq_true_eq]
          rw [if_pos hm, if_pos h3]
        · generalize hk : (rdpFar eps ⟨a, b⟩ mid 0 (0, 0)) = m at *
          have hidx : 1 ≤ m.2 ∧ m.2 ≤ mid.length := by
            rcases f3 with f3 | f3
            · rw [f3] at hm; simp at hm; linarith
            · omega
          have hL : (a :: (mid ++ [b])).length = mid.length + 2 := by simp
          obtain ⟨l, hl1, hl2⟩ := ih ((a :: (mid ++ [b])).take (m.2 + 1)) (by
            rw [List.length_take]; omega)
          obtain ⟨r, hr1, hr2⟩ := ih ((a :: (mid ++ [b])).drop m.2) (by
            rw [List.length_drop]; omega)
          refine ⟨l ++ r.drop 1, ?_, ?_⟩
          · intro fuel hf
            obtain ⟨f, rfl⟩ : ∃ f, fuel = f + 1 := ⟨fuel - 1, by omega⟩
            rw [rdp, if_neg hs, hh, hl]
            simp only [hd, real_lt, real_zero, decide_eq_true_eq, hk]
            rw [if_pos hm, if_neg h3, hl1 f (by omega), hr1 f (by omega)]
            rfl
          · generalize hP : a :: (mid ++ [b]) = PS at *
            have hkl : m.2 < PS.length := by omega
            have e0 : PS.drop m.2 = PS[m.2] :: PS.drop (m.2 + 1) := List.drop_eq_getElem_cons hkl
            have hrh : r.head? = some PS[m.2] := by rw [hr2.head, e0]; rfl
            obtain ⟨r', rfl⟩ : ∃ r', r = PS[m.2] :: r' := by
              cases r with
              | nil => simp at hrh
              | cons x r' => simp at hrh; exact ⟨r', by rw [hrh]⟩
            have := hl2.join (PS.take m.2) PS[m.2] (PS.drop (m.2 + 1)) r'
              (by rw [List.take_add_one, List.getElem?_eq_getElem hkl]; rfl) (by rw [← e0]; exact hr2)
            rw [← e0, List.take_append_drop] at this
            simpa using this
      · refine ⟨[a, b], ?_, ?_⟩
        · intro fuel hf
          obtain ⟨f, rfl⟩ : ∃ f, fuel = f + 1 := ⟨fuel - 1, by omega⟩
          rw [rdp, if_neg hs, hh, hl]
          simp only [hd, real_lt, real_zero, decide_eq_true_eq]
          rw [if_neg hm]
        · push Not at hm
          exact .step a b mid [] [] (fun p hp => near_of_distance eps tol a b p (le_trans (f2 p hp) hm)) (.single b)

theorem near_self (tol : ℝ) (htol : 0 ≤ tol) (a b : P ℝ) : NearSegment tol a b a ∧ NearSegment tol a b b := by
  constructor
  · exact ⟨0, le_rfl, by norm_num, by simp [segPt, sqDist]; exact htol⟩
  · exact ⟨1, by norm_num, le_rfl, by simp [segPt, sqDist]; exact htol⟩

/-- The points within `tol` of a segment form a convex set. -/
theorem near_convex {tol : ℝ} {a b p q : P ℝ} (hp : NearSegment tol a b p) (hq : NearSegment tol a b q) (t : ℝ) (t0 : 0 ≤ t) (t1 : t ≤ 1) :
    NearSegment tol a b (segPt ⟨p, q⟩ t) := by
  obtain ⟨u, u0, u1, hu⟩ := hp
  obtain ⟨v, v0, v1, hv⟩ := hq
  have htol : 0 ≤ tol := le_trans (Real.sqrt_nonneg _) hu
  rw [Real.sqrt_le_left htol] at hu hv
  refine ⟨u + t * (v - u), by nlinarith, by nlinarith, ?_⟩
  rw [Real.sqrt_le_left htol]
  simp only [sqDist, segPt] at *
  set X := a.x + u * (b.x - a.x) - p.x
  set Y := a.y + u * (b.y - a.y) - p.y
  set Z := a.x + v * (b.x - a.x) - q.x
  set W := a.y + v * (b.y - a.y) - q.y
  have e1 : a.x + (u + t * (v - u)) * (b.x - a.x) - (p.x + t * (q.x - p.x)) = (1 - t) * X + t * Z := by simp only [X, Z]; ring
  have e2 : a.y + (u + t * (v - u)) * (b.y - a.y) - (p.y + t * (q.y - p.y)) = (1 - t) * Y + t * W := by simp only [Y, W]; ring
  rw [e1, e2]
  have h1 : ((1 - t) * X + t * Z) ^ 2 + ((1 - t) * Y + t * W) ^ 2 =
      (1 - t) * (X ^ 2 + Y ^ 2) + t * (Z ^ 2 + W ^ 2) - (1 - t) * t * ((X - Z) ^ 2 + (Y - W) ^ 2) := by ring
  rw [h1]
  have h2 : 0 ≤ (1 - t) * t * ((X - Z) ^ 2 + (Y - W) ^ 2) := by
    apply mul_nonneg (mul_nonneg (by linarith) t0); positivity
  have h3 := mul_le_mul_of_nonneg_left hu (show 0 ≤ 1 - t by linarith)
  have h4 := mul_le_mul_of_nonneg_left hv t0
  nlinarith

theorem Consecutive.cons_iff {x y a : P ℝ} {l : List (P ℝ)} :
    Consecutive x y (a :: l) ↔ (a = x ∧ l.head? = some y) ∨ Consecutive x y l := by
  constructor
  · rintro ⟨pre, post, e⟩
    cases pre with
    | nil => simp at e; left; exact ⟨e.1, by rw [e.2]; rfl⟩
    | cons z pre => simp at e; right; exact ⟨pre, post, e.2⟩
  · rintro (⟨rfl, h⟩ | ⟨pre, post, rfl⟩)
    · cases l with
      | nil => simp at h
      | cons b l => simp at h; subst h; exact ⟨[], l, rfl⟩
    · exact ⟨a :: pre, post, rfl⟩

/-- Two neighbours in `mid ++ b :: rest` are both in `mid ++ [b]`, or neighbours in `b :: rest`. -/
theorem consecutive_split {x y b : P ℝ} {rest : List (P ℝ)} : ∀ mid : List (P ℝ), Consecutive x y (mid ++ b :: rest) →
    (x ∈ mid ∧ y ∈ mid ++ [b]) ∨ Consecutive x y (b :: rest)
  | [], h => .inr h
  | m :: mid, h => by
    rcases Consecutive.cons_iff.1 h with ⟨e, h'⟩ | h
    · left
      cases mid with
      | nil => simp at h' ⊢; exact ⟨e.symm, .inr h'.symm⟩
      | cons z mid => simp at h' ⊢; exact ⟨.inl e.symm, .inr (.inl h'.symm)⟩
    · rcases consecutive_split mid h with ⟨h1, h2⟩ | h
      · exact .inl ⟨List.mem_cons_of_mem _ h1, List.mem_cons_of_mem _ h2⟩
      · exact .inr h

theorem Thinned.near {tol : ℝ} (htol : 0 ≤ tol) {ps rs : List (P ℝ)} (h : Thinned tol ps rs) (x y : P ℝ) (hc : Consecutive x y ps) :
    ∃ a b, Consecutive a b rs ∧ NearSegment tol a b x ∧ NearSegment tol a b y := by
  induction h with
  | nil => obtain ⟨pre, post, e⟩ := hc; simp at e
  | single p =>
    obtain ⟨pre, post, e⟩ := hc
    have := congrArg List.length e
    simp at this
    omega
  | step a b mid rest rs hmid h ih =>
    have first : ∀ z ∈ (a :: mid) ++ [b], NearSegment tol a b z := by
      intro z hz
      simp only [List.cons_append, List.mem_cons, List.mem_append, List.not_mem_nil, or_false] at hz
      rcases hz with rfl | hz | rfl
      · exact (near_self tol htol _ _).1
      · exact hmid z hz
      · exact (near_self tol htol _ _).2
    rw [← List.cons_append] at hc
    rcases consecutive_split (a :: mid) hc with ⟨h1, h2⟩ | hc
    · exact ⟨a, b, ⟨[], rs, rfl⟩, first x (List.mem_append_left _ h1), first y h2⟩
    · obtain ⟨c, d, h1, h2⟩ := ih hc
      exact ⟨c, d, Consecutive.cons_iff.2 (.inr h1), h2⟩

/-- **C54**, all points: no point of the polyline, on a vertex or between two of them, is further than the tolerance from the simplified
polyline. -/
theorem C54_rdp_points (eps tol : ℝ) (htol : 0 ≤ tol) (ps : List (P ℝ)) :
    ∃ rs, (∀ depth, ps.length + 1 ≤ depth → rdp eps tol depth ps = some rs) ∧
      ∀ x y, Consecutive x y ps → ∃ a b, Consecutive a b rs ∧ ∀ t, 0 ≤ t → t ≤ 1 → NearSegment tol a b (segPt ⟨x, y⟩ t) := by
  obtain ⟨rs, h1, h2⟩ := rdp_thinned eps tol htol ps.length ps le_rfl
  refine ⟨rs, h1, fun x y hc => ?_⟩
  obtain ⟨a, b, h3, h4, h5⟩ := h2.near htol x y hc
  exact ⟨a, b, h3, fun t t0 t1 => near_convex h4 h5 t t0 t1⟩

/-- Three vertices, the middle one half a unit off the chord: with tolerance 1 the line from the first to the second vertex is within 1 of the
chord that replaces both lines. -/
example : Consecutive (⟨0, 0⟩ : P ℝ) ⟨1, 1/2⟩ [⟨0, 0⟩, ⟨1, 1/2⟩, ⟨2, 0⟩] ∧ Thinned 1 [(⟨0, 0⟩ : P ℝ), ⟨1, 1/2⟩, ⟨2, 0⟩] [⟨0, 0⟩, ⟨2, 0⟩] := by
  refine ⟨⟨[], [⟨2, 0⟩], rfl⟩, ?_⟩
  refine Thinned.step ⟨0, 0⟩ ⟨2, 0⟩ [⟨1, 1/2⟩] [] [] ?_ (.single _)
  intro p hp
  simp at hp
  subst hp
  refine ⟨1/2, by norm_num, by norm_num, ?_⟩
  rw [Real.sqrt_le_left (by norm_num)]
  norm_num [sqDist, segPt]

end Verif.Geom
