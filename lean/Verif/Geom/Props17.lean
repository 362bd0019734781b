import Verif.Geom.Props5
import Verif.Geom.Props16

/-!
# C121: the part of a line inside a polygon
-/

set_option linter.unusedSectionVars false

namespace Verif.Geom
open Verif PyFloat PyTrig

/-! ## Specification -/

/-- Specification: general position.  If the line and a side, both lengthened by the tolerance, have a common point, then they cross between their ends, and are not almost parallel. -/
def GeneralPosition (eps : ℝ) (vs : List (P ℝ)) (l : Line ℝ) : Prop :=
  ∀ e ∈ sides vs, (∃ t s, -eps ≤ t ∧ t ≤ 1 + eps ∧ -eps ≤ s ∧ s ≤ 1 + eps ∧ segPt l t = segPt ⟨e.1, e.2⟩ s) →
    (∃ t s, 0 < t ∧ t < 1 ∧ 0 < s ∧ s < 1 ∧ segPt l t = segPt ⟨e.1, e.2⟩ s) ∧ eps ≤ |dirCross l ⟨e.1, e.2⟩|

/-- Specification: the parameter lies in the interval. -/
def InCut (t : ℝ) (c : ℝ × ℝ) : Prop := (c.1 ≤ t ∧ t ≤ c.2) ∨ (c.2 ≤ t ∧ t ≤ c.1)

/-- Specification: the parts of a line that are not shorter than the tolerance. -/
noncomputable def partsOf (eps : ℝ) (l : Line ℝ) (cuts : List (ℝ × ℝ)) : List (Line ℝ) :=
  (cuts.filter fun c => decide (eps ^ 2 ≤ sqDist (segPt l c.1) (segPt l c.2))).map fun c => ⟨segPt l c.1, segPt l c.2⟩

/-! ## Sorting -/

theorem insertNum_perm (a : ℝ) (l : List ℝ) : (insertNum a l).Perm (a :: l) := by
  induction l with
  | nil => exact List.Perm.refl _
  | cons b l ih =>
    unfold insertNum
    split
    · exact (ih.cons b).trans (List.Perm.swap a b l)
    · exact List.Perm.refl _

theorem sortNums_perm (l : List ℝ) : (sortNums l).Perm l := by
  induction l with
  | nil => exact List.Perm.refl _
  | cons a l ih => exact (insertNum_perm a _).trans (ih.cons a)

theorem insertNum_sorted (a : ℝ) (l : List ℝ) (h : l.Pairwise (· ≤ ·)) : (insertNum a l).Pairwise (· ≤ ·) := by
  induction l with
  | nil => simp [insertNum]
  | cons b l ih =>
    have hb := List.pairwise_cons.1 h
    unfold insertNum
    split
    · rename_i hlt
      rw [real_lt, decide_eq_true_eq] at hlt
      rw [List.pairwise_cons]
      refine ⟨fun x hx => ?_, ih hb.2⟩
      rcases List.mem_cons.1 ((insertNum_perm a l).mem_iff.1 hx) with rfl | hx
      · exact hlt.le
      · exact hb.1 x hx
    · rename_i hlt
      rw [real_lt, decide_eq_true_eq, not_lt] at hlt
      rw [List.pairwise_cons]
      refine ⟨fun x hx => ?_, h⟩
      rcases List.mem_cons.1 hx with rfl | hx
      · exact hlt
      · exact hlt.trans (hb.1 x hx)

theorem sortNums_sorted (l : List ℝ) : (sortNums l).Pairwise (· ≤ ·) := by
  induction l with
  | nil => exact List.Pairwise.nil
  | cons a l ih => exact insertNum_sorted a _ ih

/-! ## Cutting -/

/-- The intervals of the loop. -/
def cutsFrom : ℝ → List ℝ → List (ℝ × ℝ)
  | _, [] => []
  | lo, [m] => [(lo, m)]
  | lo, m :: m' :: rest => (lo, m) :: cutsFrom m' rest

theorem clipLoop_cuts (eps : ℝ) (l : Line ℝ) : ∀ (n : ℕ) (ms : List ℝ) (lo : ℝ), ms.length ≤ n → clipLoop eps l (segPt l lo) ms = partsOf eps l (cutsFrom lo ms) := by
  have hne : ∀ p q : P ℝ, p.ne eps q = decide (eps ^ 2 ≤ sqDist p q) := by
    intro p q
    show (!p.eq eps q) = _
    rw [Bool.eq_iff_iff, Bool.not_eq_true', eq_false_iff, decide_eq_true_eq]
  intro n
  induction n with
  | zero => intro ms lo h; rw [List.length_eq_zero_iff.1 (Nat.le_zero.1 h)]; rfl
  | succ n ih =>
    intro ms lo h
    match ms with
    | [] => rfl
    | [m] =>
      unfold clipLoop cutsFrom partsOf
      rw [pointAt_real, hne]
      by_cases hc : eps ^ 2 ≤ sqDist (segPt l lo) (segPt l m) <;> simp [hc]
    | m :: m' :: rest =>
      unfold clipLoop cutsFrom
      rw [pointAt_real, pointAt_real, ih rest m' (by simp at h ⊢; omega), hne]
      unfold partsOf
      by_cases hc : eps ^ 2 ≤ sqDist (segPt l lo) (segPt l m) <;> simp [hc]

theorem cutsFrom_ge : ∀ (k : ℕ) (l : List ℝ) (a : ℝ), l.length ≤ k → (a :: l).Pairwise (· ≤ ·) → ∀ c ∈ cutsFrom a l, a ≤ c.1 ∧ a ≤ c.2 := by
  intro k
  induction k with
  | zero => intro l a hl _ c hc; rw [List.length_eq_zero_iff.1 (Nat.le_zero.1 hl)] at hc; simp [cutsFrom] at hc
  | succ k ihk =>
    intro l a hl hp c hc
    match l with
    | [] => simp [cutsFrom] at hc
    | [x] =>
      simp only [cutsFrom, List.mem_singleton] at hc
      subst hc
      exact ⟨le_refl _, by simpa using hp⟩
    | x :: y :: r =>
      simp only [cutsFrom, List.mem_cons] at hc
      obtain ⟨q1, q2⟩ := List.pairwise_cons.1 hp
      rcases hc with rfl | hc
      · exact ⟨le_refl _, q1 x (by simp)⟩
      · have := ihk r y (by simp at hl ⊢; omega) (List.pairwise_cons.1 q2).2 c hc
        exact ⟨(q1 y (by simp)).trans this.1, (q1 y (by simp)).trans this.2⟩

/-- Which parameters the intervals contain. -/
theorem cutsFrom_mem : ∀ (n : ℕ) (ms : List ℝ) (lo t : ℝ), ms.length ≤ n → (lo :: ms).Pairwise (· ≤ ·) → t ∉ ms → lo ≤ t →
    ((∃ c ∈ cutsFrom lo ms, InCut t c) ↔ Even (ms.countP fun m => decide (m < t)) ∧ ms.countP (fun m => decide (m < t)) < ms.length) := by
  intro n
  induction n with
  | zero => intro ms lo t h _ _ _; rw [List.length_eq_zero_iff.1 (Nat.le_zero.1 h)]; simp [cutsFrom]
  | succ n ih =>
    intro ms lo t h hs ht hlo
    match ms with
    | [] => simp [cutsFrom]
    | [m] =>
      have hm : t ≠ m := by simpa using ht
      have hs' : lo ≤ m := by simpa using hs
      simp only [cutsFrom, List.mem_singleton, exists_eq_left, InCut]
      by_cases hc : m < t
      · simp only [hc, decide_true, List.countP_cons_of_pos, List.countP_nil]
        simp only [List.length_singleton, lt_irrefl, and_false, iff_false]
        rintro (h | h) <;> linarith
      · have : t < m := lt_of_le_of_ne (not_lt.1 hc) hm
        simp [hc, this.le, hlo]
    | m :: m' :: rest =>
      obtain ⟨h1, h2⟩ := List.pairwise_cons.1 hs
      obtain ⟨h3, h4⟩ := List.pairwise_cons.1 h2
      have hm : t ≠ m := by rintro rfl; simp at ht
      have hm' : t ≠ m' := by rintro rfl; simp at ht
      have hl := h1 m (by simp)
      have hmm := h3 m' (by simp)
      by_cases hc' : m' < t
      · have hc : m < t := lt_of_le_of_lt hmm hc'
        have hi := ih rest m' t (by simp at h ⊢; omega) h4 (by intro hx; exact ht (by simp [hx])) hc'.le
        simp only [cutsFrom, List.mem_cons, exists_eq_or_imp, List.countP_cons, hc, hc', decide_true, if_true, List.length_cons]
        rw [hi]
        have : ¬ InCut t (lo, m) := by rintro (h | h) <;> dsimp only at h <;> linarith
        simp only [this, false_or]
        constructor
        · rintro ⟨g1, g2⟩; exact ⟨by rw [add_assoc]; exact g1.add (by decide), by omega⟩
        · rintro ⟨g1, g2⟩
          refine ⟨?_, by omega⟩
          rw [Nat.even_iff] at g1 ⊢; omega
      · have hlt' : t < m' := lt_of_le_of_ne (not_lt.1 hc') hm'
        have hrest : rest.countP (fun m => decide (m < t)) = 0 := by
          rw [List.countP_eq_zero]
          intro x hx
          have := (List.pairwise_cons.1 h4).1 x hx
          simp only [decide_eq_true_eq, not_lt]; linarith
        have hcut : ∀ c ∈ cutsFrom m' rest, ¬ InCut t c := by
          intro c hc hin
          have := cutsFrom_ge _ rest m' le_rfl h4 c hc
          rcases hin with h | h <;> linarith [this.1, this.2]
        simp only [cutsFrom, List.mem_cons, exists_eq_or_imp, List.countP_cons, hc', decide_false, Bool.false_eq_true, if_false, add_zero, hrest, List.length_cons]
        have : ¬ ∃ c ∈ cutsFrom m' rest, InCut t c := by rintro ⟨c, hc, hin⟩; exact hcut c hc hin
        simp only [this, or_false]
        by_cases hc : m < t
        · simp only [hc, decide_true, if_true]
          constructor
          · rintro (h | h) <;> dsimp only at h <;> linarith
          · rintro ⟨h, -⟩; exact absurd h (by decide)
        · simp only [hc, decide_false, Bool.false_eq_true, if_false]
          exact ⟨fun _ => ⟨by decide, by omega⟩, fun _ => .inl ⟨hlo, not_lt.1 hc⟩⟩

theorem cutsFrom_neg : ∀ (n : ℕ) (ms : List ℝ) (lo : ℝ), ms.length ≤ n → cutsFrom (-lo) (ms.map (- ·)) = (cutsFrom lo ms).map fun c => (-c.1, -c.2) := by
  intro n
  induction n with
  | zero => intro ms lo h; rw [List.length_eq_zero_iff.1 (Nat.le_zero.1 h)]; rfl
  | succ n ih =>
    intro ms lo h
    match ms with
    | [] => rfl
    | [m] => rfl
    | m :: m' :: rest =>
      simp only [List.map_cons, cutsFrom]
      rw [ih rest m' (by simp at h ⊢; omega)]

/-! ## Crossings -/

theorem seg_cross {l o : Line ℝ} {t s : ℝ} (h : segPt l t = segPt o s) : t * dirCross l o = l.numA o ∧ s * dirCross l o = l.numB o := by
  have hx := congrArg P.x h
  have hy := congrArg P.y h
  simp only [segPt] at hx hy
  have hA : l.numA o = (o.p2.x - o.p1.x) * (l.p1.y - o.p1.y) - (o.p2.y - o.p1.y) * (l.p1.x - o.p1.x) := by
    unfold Line.numA; simp only [real_sub, real_mul]
  have hB : l.numB o = (l.p2.x - l.p1.x) * (l.p1.y - o.p1.y) - (l.p2.y - l.p1.y) * (l.p1.x - o.p1.x) := by
    unfold Line.numB; simp only [real_sub, real_mul]
  rw [hA, hB]
  unfold dirCross
  exact ⟨by linear_combination (o.p2.y - o.p1.y) * hx - (o.p2.x - o.p1.x) * hy, by linear_combination (l.p2.y - l.p1.y) * hx - (l.p2.x - l.p1.x) * hy⟩

/-- What `intersection_mu` says about a line in general position to a side. -/
theorem mu_general {eps : ℝ} (heps : 0 < eps) {l o : Line ℝ}
    (hgp : (∃ t s, -eps ≤ t ∧ t ≤ 1 + eps ∧ -eps ≤ s ∧ s ≤ 1 + eps ∧ segPt l t = segPt o s) →
      (∃ t s, 0 < t ∧ t < 1 ∧ 0 < s ∧ s < 1 ∧ segPt l t = segPt o s) ∧ eps ≤ |dirCross l o|) :
    (l.intersectionMu eps o true = none ∧ ∀ t s, -eps ≤ t → t ≤ 1 + eps → -eps ≤ s → s ≤ 1 + eps → segPt l t ≠ segPt o s) ∨
    ∃ m s, l.intersectionMu eps o true = some m ∧ 0 < m ∧ m < 1 ∧ 0 < s ∧ s < 1 ∧ segPt l m = segPt o s ∧ ∀ t' s', segPt l t' = segPt o s' → t' = m ∧ s' = s := by
  have hd : l.denom o = dirCross l o := by unfold Line.denom dirCross; simp only [real_sub, real_mul]; ring
  by_cases hc : ∃ t s, -eps ≤ t ∧ t ≤ 1 + eps ∧ -eps ≤ s ∧ s ≤ 1 + eps ∧ segPt l t = segPt o s
  · right
    obtain ⟨⟨t, s, t0, t1, s0, s1, h⟩, hD⟩ := hgp hc
    have hD0 : dirCross l o ≠ 0 := by intro h; rw [h, abs_zero] at hD; linarith
    obtain ⟨h1, h2⟩ := seg_cross h
    have e1 : l.numA o / dirCross l o = t := by rw [← h1]; field_simp
    have e2 : l.numB o / dirCross l o = s := by rw [← h2]; field_simp
    refine ⟨t, s, ?_, t0, t1, s0, s1, h, ?_⟩
    · unfold Line.intersectionMu
      rw [hd]
      dsimp only
      rw [real_div, real_div, e1, e2, real_lt, real_abs, decide_eq_false (not_lt.2 hD)]
      simp only [Bool.false_eq_true, if_false, Bool.true_or, Bool.true_and]
      rw [if_neg]
      unfold Line.muOutside
      simp only [real_lt, real_neg, real_add, real_one, Bool.or_eq_true, decide_eq_true_eq]
      rintro ((h | h) | (h | h)) <;> linarith
    · intro t' s' h'
      obtain ⟨h1', h2'⟩ := seg_cross h'
      exact ⟨mul_right_cancel₀ hD0 (h1'.trans h1.symm), mul_right_cancel₀ hD0 (h2'.trans h2.symm)⟩
  · left
    have hno : ∀ t s, -eps ≤ t → t ≤ 1 + eps → -eps ≤ s → s ≤ 1 + eps → segPt l t ≠ segPt o s := fun t s h1 h2 h3 h4 h5 => hc ⟨t, s, h1, h2, h3, h4, h5⟩
    refine ⟨?_, hno⟩
    have := C55_intersection eps heps l o true false false
    cases hm : l.intersection eps o true with
    | none => unfold Line.intersection at hm; simpa using hm
    | some p =>
      exfalso
      obtain ⟨s, t, h1, h2, -, h3, h4⟩ := this.1 p hm
      have h3 := h3 rfl
      have h4 := h4 rfl
      unfold OutsideSeg at h3 h4
      push Not at h3 h4
      exact hno s t h3.1 h3.2 h4.1 h4.2 (h1.symm.trans h2)

theorem segPt_sub (l : Line ℝ) (t u : ℝ) : segPt ⟨l.p1, segPt l t⟩ u = segPt l (u * t) := by apply P.ext_real <;> simp only [segPt] <;> ring

theorem segPt_zero (l : Line ℝ) : segPt l 0 = l.p1 := by apply P.ext_real <;> simp [segPt]
theorem segPt_one (l : Line ℝ) : segPt l 1 = l.p2 := by apply P.ext_real <;> simp [segPt]

/-- Whether a point of the line is inside depends on the number of intersections before it. -/
theorem inside_count {eps : ℝ} (heps : 0 < eps) {vs : List (P ℝ)} {l : Line ℝ} (hgp : GeneralPosition eps vs l) (t : ℝ) (h0 : 0 ≤ t) (h1 : t ≤ 1)
    (hon : ∀ e ∈ sides vs, ¬ OnSeg (segPt l t) ⟨e.1, e.2⟩) :
    (polyPointInside vs l.p1 ≠ polyPointInside vs (segPt l t)) ↔ Odd ((clipMus eps l (sides vs)).countP fun m => decide (m < t)) := by
  classical
  have mu := fun e (he : e ∈ sides vs) => mu_general heps (hgp e he)
  have onl : ∀ (e : P ℝ × P ℝ) (he : e ∈ sides vs) (t' s' : ℝ), 0 ≤ t' → t' ≤ 1 → 0 ≤ s' → s' ≤ 1 → segPt l t' = segPt ⟨e.1, e.2⟩ s' → 0 < t' ∧ t' < 1 ∧ 0 < s' ∧ s' < 1 := by
    intro e he t' s' a1 a2 a3 a4 h
    rcases mu e he with ⟨-, hn⟩ | ⟨m, s, -, m0, m1, s0, s1, -, hu⟩
    · exact absurd h (hn t' s' (by linarith) (by linarith) (by linarith) (by linarith))
    · obtain ⟨rfl, rfl⟩ := hu t' s' h; exact ⟨m0, m1, s0, s1⟩
  rw [C120_parity]
  · unfold crossings clipMus
    rw [List.countP_filterMap]
    have : (sides vs).countP (fun e => decide (Meet ⟨l.p1, segPt l t⟩ e)) =
        (sides vs).countP (fun e => (((l.intersectionMu eps ⟨e.1, e.2⟩ true).map fun m => decide (m < t)).getD false)) := by
      apply List.countP_congr
      intro e he
      rw [decide_eq_true_eq]
      rcases mu e he with ⟨hm, hn⟩ | ⟨m, s, hm, m0, m1, s0, s1, hp, hu⟩
      · rw [hm]
        simp only [Option.map_none, Option.getD_none, Bool.false_eq_true, iff_false]
        rintro ⟨u, s', u0, u1, s0, s1, h⟩
        rw [segPt_sub] at h
        exact hn _ _ (by nlinarith) (by nlinarith) (by linarith) (by linarith) h
      · rw [hm]
        simp only [Option.map_some, Option.getD_some, decide_eq_true_eq]
        constructor
        · rintro ⟨u, s', u0, u1, s0', s1', h⟩
          rw [segPt_sub] at h
          obtain ⟨e1, e2⟩ := hu _ _ h
          have : m ≤ t := by rw [← e1]; nlinarith
          refine lt_of_le_of_ne this ?_
          rintro rfl
          exact hon e he ⟨s, s0.le, s1.le, hp⟩
        · intro hlt
          have ht : 0 < t := by linarith
          refine ⟨m / t, s, by positivity, by rw [div_le_one ht]; exact hlt.le, s0.le, s1.le, ?_⟩
          rw [segPt_sub, div_mul_cancel₀ _ ht.ne']; exact hp
    rw [this]
  · refine ⟨?_, ?_⟩
    · rintro v hv ⟨u, u0, u1, h⟩
      rw [segPt_sub] at h
      -- every vertex is the start of a side
      have : ∃ e ∈ sides vs, e.1 = v := by
        unfold sides
        obtain ⟨i, hi, rfl⟩ := List.mem_iff_getElem.1 hv
        refine ⟨(vs[i], (vs.rotate 1)[i]'(by simpa using hi)), ?_, rfl⟩
        rw [List.mem_iff_getElem]
        exact ⟨i, by simpa using hi, by simp⟩
      obtain ⟨e, he, rfl⟩ := this
      have := onl e he (u * t) 0 (by positivity) (by nlinarith) le_rfl zero_le_one (by rw [← h, segPt_zero])
      exact lt_irrefl _ this.2.2.1
    · intro e he
      refine ⟨?_, hon e he⟩
      rintro ⟨s, s0, s1, h⟩
      have := onl e he 0 s le_rfl zero_le_one s0 s1 (by rw [segPt_zero]; exact h)
      exact lt_irrefl _ this.1

/-- The intersections that are found. -/
theorem clip_found {eps : ℝ} (heps : 0 < eps) {vs : List (P ℝ)} {l : Line ℝ} (hgp : GeneralPosition eps vs l) (hne : vs ≠ [])
    (hcl : ∀ a b, vs.head? = some a → vs.getLast? = some b → a ≠ b → eps ^ 2 ≤ sqDist a b) :
    ∃ es, clipEdges eps vs = .ok es ∧ (clipMus eps l es).Perm (clipMus eps l (sides vs)) := by
  obtain ⟨v, tl, rfl⟩ := List.exists_cons_of_ne_nil hne
  have hl : (v :: tl).getLast? = some (tl.getLastD v) := by rw [List.getLast?_cons, List.getLastD_eq_getLast?]
  have hp : (clipMus eps l (cycPairs (v :: tl))).Perm (clipMus eps l (sides (v :: tl))) := ((sides_perm _).filterMap _).symm
  unfold clipEdges
  rw [hl]
  simp only [List.head?_cons, List.tail_cons]
  refine ⟨_, rfl, ?_⟩
  by_cases hc : v.eq eps (tl.getLastD v) = true
  · rw [if_pos hc]
    have heq : v = tl.getLastD v := by
      by_contra hcon
      have := hcl v _ rfl hl hcon
      rw [eq_iff] at hc
      linarith
    refine List.Perm.trans ?_ hp
    rw [cycPairs_cons, ← heq]
    have : clipMus eps l ((v, v) :: pairsFrom v tl) = clipMus eps l (pairsFrom v tl) := by
      unfold clipMus
      rw [List.filterMap_cons]
      have : l.intersectionMu eps ⟨v, v⟩ true = none := by
        unfold Line.intersectionMu Line.denom
        simp [heps]
      simp only [this]
    rw [this]
  · rw [if_neg hc]; exact hp

theorem mus_range {eps : ℝ} (heps : 0 < eps) {vs : List (P ℝ)} {l : Line ℝ} (hgp : GeneralPosition eps vs l) {m : ℝ} (h : m ∈ clipMus eps l (sides vs)) :
    0 < m ∧ m < 1 ∧ ∃ e ∈ sides vs, OnSeg (segPt l m) ⟨e.1, e.2⟩ := by
  unfold clipMus at h
  obtain ⟨e, he, h⟩ := List.mem_filterMap.1 h
  rcases mu_general heps (hgp e he) with ⟨hm, -⟩ | ⟨m', s, hm, m0, m1, s0, s1, hp, -⟩
  · rw [hm] at h; cases h
  · rw [hm] at h; cases h
    exact ⟨m0, m1, e, he, s, s0.le, s1.le, hp⟩

/-! ## C121 -/

/-- **C121**: for every polygon and every line in general position to it, `intersect_line` returns exactly the parts of the line that are inside the polygon (less those shorter than the
tolerance), provided that the ends of the line are not both inside while parts of it are outside (`C121_refuted_inside`). -/
theorem C121_clip_partial (eps : ℝ) (heps : 0 < eps) (vs : List (P ℝ)) (hne : vs ≠ []) (hcl : ∀ a b, vs.head? = some a → vs.getLast? = some b → a ≠ b → eps ^ 2 ≤ sqDist a b)
    (l : Line ℝ) (hl : eps ^ 2 ≤ sqDist l.p1 l.p2) (hgp : GeneralPosition eps vs l)
    (hin : polyPointInside vs l.p1 = true → polyPointInside vs l.p2 = true → ∀ e ∈ sides vs, ¬ Meet l e) :
    ∃ cuts : List (ℝ × ℝ), polyIntersectLine eps vs l = .ok (partsOf eps l cuts) ∧
      ∀ t, 0 ≤ t → t ≤ 1 → (∀ e ∈ sides vs, ¬ OnSeg (segPt l t) ⟨e.1, e.2⟩) → (polyPointInside vs (segPt l t) = true ↔ ∃ c ∈ cuts, InCut t c) := by
  obtain ⟨es, hes, hperm⟩ := clip_found heps hgp hne hcl
  have hp2 : (sortNums (clipMus eps l es)).Perm (clipMus eps l (sides vs)) := (sortNums_perm _).trans hperm
  have hsort := sortNums_sorted (clipMus eps l es)
  have hcount := fun t h0 h1 hon => inside_count heps hgp t h0 h1 hon
  have hrange : ∀ m ∈ sortNums (clipMus eps l es), 0 < m ∧ m < 1 ∧ ∃ e ∈ sides vs, OnSeg (segPt l m) ⟨e.1, e.2⟩ := fun m hm => mus_range heps hgp (hp2.mem_iff.1 hm)
  have hends : ∀ e ∈ sides vs, ¬ OnSeg l.p1 ⟨e.1, e.2⟩ ∧ ¬ OnSeg l.p2 ⟨e.1, e.2⟩ := by
    intro e he
    rcases mu_general heps (hgp e he) with ⟨-, hn⟩ | ⟨m, s, -, m0, m1, -, -, -, hu⟩
    · constructor
      · rintro ⟨s, s0, s1, h⟩; exact hn 0 s (by linarith) (by linarith) (by linarith) (by linarith) (by rw [segPt_zero]; exact h)
      · rintro ⟨s, s0, s1, h⟩; exact hn 1 s (by linarith) (by linarith) (by linarith) (by linarith) (by rw [segPt_one]; exact h)
    · constructor
      · rintro ⟨s, s0, s1, h⟩; have := (hu 0 s (by rw [segPt_zero]; exact h)).1; linarith
      · rintro ⟨s, s0, s1, h⟩; have := (hu 1 s (by rw [segPt_one]; exact h)).1; linarith
  have hone := hcount 1 zero_le_one le_rfl (fun e he => by rw [segPt_one]; exact (hends e he).2)
  rw [segPt_one, ← hp2.countP_eq] at hone
  have hall : (sortNums (clipMus eps l es)).countP (fun m => decide (m < 1)) = (sortNums (clipMus eps l es)).length := by
    rw [List.countP_eq_length]; intro m hm; exact decide_eq_true (hrange m hm).2.1
  rw [hall] at hone
  simp only [← hp2.countP_eq] at hcount
  unfold polyIntersectLine
  simp only [hes, bind, Except.bind]
  generalize hms : sortNums (clipMus eps l es) = ms at *
  cases ms with
  | nil =>
    simp only [pure, Except.pure]
    have e12 : polyPointInside vs l.p1 = polyPointInside vs l.p2 := by
      by_contra hc; exact absurd (hone.1 hc) (by simp)
    by_cases hb : polyPointInside vs l.p1 = true
    · refine ⟨[(0, 1)], ?_, ?_⟩
      · rw [hb, ← e12, hb]
        simp [partsOf, segPt_zero, segPt_one, hl]
      · intro t h0 h1 hon
        have := hcount t h0 h1 hon
        rw [hb] at this
        simp only [List.countP_nil, Nat.not_odd_zero, iff_false, not_not] at this
        simp [← this, InCut, h0, h1]
    · refine ⟨[], ?_, ?_⟩
      · rw [Bool.not_eq_true] at hb
        rw [hb]; simp [partsOf]
      · intro t h0 h1 hon
        have := hcount t h0 h1 hon
        rw [Bool.not_eq_true] at hb
        rw [hb] at this
        simp only [List.countP_nil, Nat.not_odd_zero, iff_false, not_not] at this
        simp [← this]
  | cons m ms =>
    simp only [pure, Except.pure]
    have hnot : ∀ t, (∀ e ∈ sides vs, ¬ OnSeg (segPt l t) ⟨e.1, e.2⟩) → t ∉ m :: ms := by
      intro t hon hmem
      obtain ⟨-, -, e, he, h⟩ := hrange t hmem
      exact hon e he h
    by_cases hb1 : polyPointInside vs l.p1 = true
    · have hb2 : polyPointInside vs l.p2 = false := by
        rw [Bool.eq_false_iff]
        intro hb2
        obtain ⟨m0, m1, e, he, s, s0, s1, hs⟩ := hrange m (by simp)
        exact hin hb1 hb2 e he ⟨m, s, m0.le, m1.le, s0, s1, hs⟩
      have hodd := hone.1 (by rw [hb1, hb2]; simp)
      refine ⟨cutsFrom 0 (m :: ms), ?_, ?_⟩
      · rw [hb1, if_pos rfl, ← clipLoop_cuts eps l _ (m :: ms) 0 le_rfl, segPt_zero]
      · intro t h0 h1 hon
        rw [cutsFrom_mem _ (m :: ms) 0 t le_rfl (List.pairwise_cons.2 ⟨fun x hx => (hrange x hx).1.le, hsort⟩) (hnot t hon) h0]
        have := hcount t h0 h1 hon
        rw [hb1] at this
        have hle : (m :: ms).countP (fun m => decide (m < t)) ≤ (m :: ms).length := List.countP_le_length
        rw [← Nat.not_odd_iff_even, ← this]
        constructor
        · intro h
          refine ⟨by rw [h]; simp, lt_of_le_of_ne hle ?_⟩
          intro heq
          rw [heq, h] at this
          exact absurd (this.2 hodd) (by simp)
        · rintro ⟨h, -⟩
          by_contra hc
          exact h (Ne.symm hc)
    · rw [Bool.not_eq_true] at hb1
      by_cases hb2 : polyPointInside vs l.p2 = true
      · have hodd := hone.1 (by rw [hb1, hb2]; simp)
        refine ⟨cutsFrom 1 (m :: ms).reverse, ?_, ?_⟩
        · rw [hb1, hb2, ← clipLoop_cuts eps l _ (m :: ms).reverse 1 le_rfl, segPt_one]; simp
        · intro t h0 h1 hon
          have hneg := cutsFrom_mem _ ((m :: ms).reverse.map (- ·)) (-1) (-t) le_rfl (by
              rw [List.pairwise_cons]
              refine ⟨?_, ?_⟩
              · intro x hx
                simp only [List.mem_map, List.mem_reverse] at hx
                obtain ⟨y, hy, rfl⟩ := hx
                linarith [(hrange y hy).2.1]
              · rw [List.pairwise_map, List.pairwise_reverse]
                exact hsort.imp fun h => neg_le_neg h)
            (by
              intro hx
              simp only [List.mem_map, List.mem_reverse, neg_inj, exists_eq_right] at hx
              exact hnot t hon hx) (by linarith)
          rw [cutsFrom_neg _ _ _ le_rfl] at hneg
          have e1 : (∃ c ∈ (cutsFrom 1 (m :: ms).reverse).map (fun c => (-c.1, -c.2)), InCut (-t) c) ↔ ∃ c ∈ cutsFrom 1 (m :: ms).reverse, InCut t c := by
            simp only [List.mem_map]
            constructor
            · rintro ⟨c, ⟨d, hd, rfl⟩, h⟩
              refine ⟨d, hd, ?_⟩
              rcases h with h | h
              · exact .inr ⟨by linarith [h.2], by linarith [h.1]⟩
              · exact .inl ⟨by linarith [h.2], by linarith [h.1]⟩
            · rintro ⟨d, hd, h⟩
              refine ⟨_, ⟨d, hd, rfl⟩, ?_⟩
              rcases h with h | h
              · exact .inr ⟨by dsimp only; linarith [h.2], by dsimp only; linarith [h.1]⟩
              · exact .inl ⟨by dsimp only; linarith [h.2], by dsimp only; linarith [h.1]⟩
          rw [e1] at hneg
          rw [hneg, List.countP_map, List.countP_reverse, List.length_map, List.length_reverse]
          have e2 : (m :: ms).countP ((fun x => decide (x < -t)) ∘ fun x => -x) + (m :: ms).countP (fun x => decide (x < t)) = (m :: ms).length := by
            rw [List.length_eq_countP_add_countP (p := fun x : ℝ => decide (x < t)) (l := m :: ms), add_comm]
            congr 1
            apply List.countP_congr
            intro x hx
            have : x ≠ t := by rintro rfl; exact hnot _ hon hx
            simp only [Function.comp, decide_eq_true_eq, neg_lt_neg_iff, not_lt]
            exact ⟨le_of_lt, fun h => lt_of_le_of_ne h (Ne.symm this)⟩
          have := hcount t h0 h1 hon
          rw [hb1] at this
          generalize (m :: ms).countP ((fun x => decide (x < -t)) ∘ fun x => -x) = A at *
          generalize (m :: ms).countP (fun x => decide (x < t)) = B at *
          have e3 : polyPointInside vs (segPt l t) = true ↔ Odd B := by rw [← this]; cases polyPointInside vs (segPt l t) <;> simp
          rw [e3, ← e2]
          rw [← e2] at hodd
          rw [Nat.odd_iff] at hodd ⊢
          rw [Nat.even_iff]
          constructor
          · intro h; exact ⟨by omega, by omega⟩
          · rintro ⟨h, -⟩; omega
      · rw [Bool.not_eq_true] at hb2
        have heven : ¬ Odd (m :: ms).length := fun h => absurd (hone.2 h) (by rw [hb1, hb2]; simp)
        refine ⟨cutsFrom m ms, ?_, ?_⟩
        · rw [hb1, hb2, pointAt_real, ← clipLoop_cuts eps l _ ms m le_rfl]; simp
        · intro t h0 h1 hon
          have hn := hnot t hon
          have hmt : t ≠ m := by rintro rfl; exact hn (by simp)
          have := hcount t h0 h1 hon
          rw [hb1] at this
          have e3 : polyPointInside vs (segPt l t) = true ↔ Odd ((m :: ms).countP fun x => decide (x < t)) := by rw [← this]; cases polyPointInside vs (segPt l t) <;> simp
          rw [e3]
          rcases lt_or_gt_of_ne hmt with hlt | hgt
          · have hz : (m :: ms).countP (fun x => decide (x < t)) = 0 := by
              rw [List.countP_eq_zero]
              intro x hx
              rw [decide_eq_true_eq, not_lt]
              rcases List.mem_cons.1 hx with rfl | hx
              · exact hlt.le
              · exact hlt.le.trans ((List.pairwise_cons.1 hsort).1 x hx)
            rw [hz]
            simp only [Nat.not_odd_zero, false_iff]
            rintro ⟨c, hc, hin⟩
            have := cutsFrom_ge _ ms m le_rfl hsort c hc
            rcases hin with h | h <;> linarith [this.1, this.2]
          · rw [cutsFrom_mem _ ms m t le_rfl hsort (fun h => hn (by simp [h])) hgt.le]
            rw [List.countP_cons_of_pos (by simpa using hgt)]
            rw [List.length_cons] at heven
            have hle : ms.countP (fun x => decide (x < t)) ≤ ms.length := List.countP_le_length
            rw [Nat.odd_iff] at heven ⊢
            rw [Nat.even_iff]
            omega

theorem cutsFrom_le : ∀ (k : ℕ) (l : List ℝ) (a M : ℝ), l.length ≤ k → a ≤ M → (∀ x ∈ l, x ≤ M) → ∀ c ∈ cutsFrom a l, c.1 ≤ M ∧ c.2 ≤ M := by
  intro k
  induction k with
  | zero => intro l a M hl _ _ c hc; rw [List.length_eq_zero_iff.1 (Nat.le_zero.1 hl)] at hc; simp [cutsFrom] at hc
  | succ k ihk =>
    intro l a M hl ha hp c hc
    match l with
    | [] => simp [cutsFrom] at hc
    | [x] =>
      simp only [cutsFrom, List.mem_singleton] at hc
      subst hc
      exact ⟨ha, hp x (by simp)⟩
    | x :: y :: r =>
      simp only [cutsFrom, List.mem_cons] at hc
      rcases hc with rfl | hc
      · exact ⟨ha, hp x (by simp)⟩
      · exact ihk r y M (by simp at hl ⊢; omega) (hp y (by simp)) (fun z hz => hp z (by simp [hz])) c hc

theorem segPt_inj {l : Line ℝ} (h : 0 < sqDist l.p1 l.p2) {t u : ℝ} (e : segPt l t = segPt l u) : t = u := by
  have hx := congrArg P.x e
  have hy := congrArg P.y e
  simp only [segPt] at hx hy
  simp only [sqDist] at h
  by_contra hc
  have hd : t - u ≠ 0 := sub_ne_zero.2 hc
  have e1 : (t - u) * (l.p2.x - l.p1.x) = 0 := by linarith
  have e2 : (t - u) * (l.p2.y - l.p1.y) = 0 := by linarith
  have f1 := (mul_eq_zero.1 e1).resolve_left hd
  have f2 := (mul_eq_zero.1 e2).resolve_left hd
  have : l.p1.x - l.p2.x = 0 := by linarith
  have : l.p1.y - l.p2.y = 0 := by linarith
  simp_all

/-- A part of **C121** that fails: whenever both ends of the line are inside and the line leaves the polygon in between, the last part of it, although inside, is not returned. -/
theorem C121_refuted_inside (eps : ℝ) (heps : 0 < eps) (vs : List (P ℝ)) (hne : vs ≠ []) (hcl : ∀ a b, vs.head? = some a → vs.getLast? = some b → a ≠ b → eps ^ 2 ≤ sqDist a b)
    (l : Line ℝ) (hl : eps ^ 2 ≤ sqDist l.p1 l.p2) (hgp : GeneralPosition eps vs l) (hb1 : polyPointInside vs l.p1 = true) (hb2 : polyPointInside vs l.p2 = true)
    (hm : ∃ e ∈ sides vs, Meet l e) :
    ∃ r t0, polyIntersectLine eps vs l = .ok r ∧ t0 < 1 ∧ ∀ t, t0 < t → t ≤ 1 → polyPointInside vs (segPt l t) = true ∧ ∀ s ∈ r, ¬ OnSeg (segPt l t) s := by
  obtain ⟨es, hes, hperm⟩ := clip_found heps hgp hne hcl
  have hp2 : (sortNums (clipMus eps l es)).Perm (clipMus eps l (sides vs)) := (sortNums_perm _).trans hperm
  have hrange : ∀ m ∈ sortNums (clipMus eps l es), 0 < m ∧ m < 1 ∧ ∃ e ∈ sides vs, OnSeg (segPt l m) ⟨e.1, e.2⟩ := fun m hm => mus_range heps hgp (hp2.mem_iff.1 hm)
  have hpos : 0 < sqDist l.p1 l.p2 := lt_of_lt_of_le (by positivity) hl
  -- points of the line on a side are among the intersections
  have hside : ∀ t, 0 ≤ t → t ≤ 1 → ∀ e ∈ sides vs, OnSeg (segPt l t) ⟨e.1, e.2⟩ → t ∈ sortNums (clipMus eps l es) := by
    rintro t h0 h1 e he ⟨s, s0, s1, h⟩
    rw [hp2.mem_iff]
    rcases mu_general heps (hgp e he) with ⟨-, hn⟩ | ⟨m, s', hm, -, -, -, -, -, hu⟩
    · exact absurd h (hn t s (by linarith) (by linarith) (by linarith) (by linarith))
    · obtain ⟨rfl, -⟩ := hu t s h
      exact List.mem_filterMap.2 ⟨e, he, hm⟩
  obtain ⟨e0, he0, t', s', t0', t1', s0', s1', hmeet⟩ := hm
  have hmem := hside t' t0' t1' e0 he0 ⟨s', s0', s1', hmeet⟩
  have hcount := fun t h0 h1 hon => inside_count heps hgp t h0 h1 hon
  simp only [← hp2.countP_eq] at hcount
  unfold polyIntersectLine
  simp only [hes, bind, Except.bind]
  generalize hms : sortNums (clipMus eps l es) = ms at *
  obtain ⟨m, ms, rfl⟩ := List.exists_cons_of_ne_nil (List.ne_nil_of_mem hmem)
  -- the largest intersection
  obtain ⟨M, hM, hmax⟩ : ∃ M ∈ m :: ms, ∀ x ∈ m :: ms, x ≤ M := by
    have : ∀ (L : List ℝ) (a : ℝ), ∃ M ∈ a :: L, ∀ x ∈ a :: L, x ≤ M := by
      intro L
      induction L with
      | nil => intro a; exact ⟨a, by simp, by simp⟩
      | cons b L ih =>
        intro a
        obtain ⟨M, h1, h2⟩ := ih b
        rcases le_total a M with h | h
        · exact ⟨M, by simp [List.mem_cons.1 h1], fun x hx => by rcases List.mem_cons.1 hx with rfl | hx; exacts [h, h2 x hx]⟩
        · exact ⟨a, by simp, fun x hx => by rcases List.mem_cons.1 hx with rfl | hx; exacts [le_rfl, (h2 x hx).trans h]⟩
    exact this ms m
  have hM1 := (hrange M hM).2.1
  have hM0 := (hrange M hM).1
  refine ⟨_, M, rfl, hM1, ?_⟩
  intro t hMt ht1
  have hfree : ∀ u, M < u → u ≤ 1 → (∀ e ∈ sides vs, ¬ OnSeg (segPt l u) ⟨e.1, e.2⟩) ∧ (m :: ms).countP (fun x => decide (x < u)) = (m :: ms).length := by
    intro u hu hu1
    refine ⟨fun e he h => absurd (hmax u (hside u (by linarith) hu1 e he h)) (not_le.2 hu), ?_⟩
    rw [List.countP_eq_length]
    intro x hx
    exact decide_eq_true (lt_of_le_of_lt (hmax x hx) hu)
  constructor
  · obtain ⟨a1, a2⟩ := hfree t hMt ht1
    obtain ⟨b1, b2⟩ := hfree 1 hM1 le_rfl
    have c1 := hcount t (by linarith) ht1 a1
    have c2 := hcount 1 zero_le_one le_rfl b1
    rw [a2, hb1] at c1
    rw [b2, hb1, segPt_one, hb2] at c2
    rw [← c2] at c1
    by_contra hc
    exact absurd (c1.1 (Ne.symm hc)) (by simp)
  · intro s hs
    rw [hb1, if_pos rfl, ← segPt_zero l, clipLoop_cuts eps l _ (m :: ms) 0 le_rfl] at hs
    unfold partsOf at hs
    obtain ⟨c, hc, rfl⟩ := List.mem_map.1 hs
    have hc := List.mem_of_mem_filter hc
    obtain ⟨k1, k2⟩ := cutsFrom_le _ (m :: ms) 0 M le_rfl hM0.le hmax c hc
    rintro ⟨u, u0, u1, h⟩
    have : segPt ⟨segPt l c.1, segPt l c.2⟩ u = segPt l (c.1 + u * (c.2 - c.1)) := by apply P.ext_real <;> simp only [segPt] <;> ring
    rw [this] at h
    have := segPt_inj hpos h
    nlinarith

/-- Another part of **C121** that fails: a line through a corner.  The square is crossed from a corner to the opposite side, and nothing is returned. -/
theorem C121_refuted_corner :
    polyIntersectLine (1 / 1000 : ℚ) [⟨0, 0⟩, ⟨2, 0⟩, ⟨2, 2⟩, ⟨0, 2⟩] ⟨⟨-2, -1⟩, ⟨4, 2⟩⟩ = .ok [] ∧
      polyPointInside [⟨0, 0⟩, ⟨2, 0⟩, ⟨2, 2⟩, ⟨0, (2 : ℚ)⟩] ⟨1, 1 / 2⟩ = true := by
  decide +kernel

theorem sides_U : sides [⟨0, 0⟩, ⟨6, 0⟩, ⟨6, 4⟩, ⟨4, 4⟩, ⟨4, 1⟩, ⟨2, 1⟩, ⟨2, 4⟩, ⟨0, 4⟩] = [(⟨0, 0⟩, ⟨6, 0⟩), (⟨6, 0⟩, ⟨6, 4⟩), (⟨6, 4⟩, ⟨4, 4⟩), (⟨4, 4⟩, ⟨4, 1⟩),
    (⟨4, 1⟩, ⟨2, 1⟩), (⟨2, 1⟩, ⟨2, 4⟩), (⟨2, 4⟩, ⟨0, 4⟩), (⟨0, 4⟩, ⟨0, 0⟩)] := rfl

theorem general_U : GeneralPosition (1 / 1000) [⟨0, 0⟩, ⟨6, 0⟩, ⟨6, 4⟩, ⟨4, 4⟩, ⟨4, 1⟩, ⟨2, 1⟩, ⟨2, 4⟩, ⟨0, 4⟩] ⟨⟨1, 2⟩, ⟨5, 2⟩⟩ := by
  intro e he
  rw [sides_U] at he
  simp only [List.mem_cons, List.not_mem_nil, or_false] at he
  rintro ⟨t, s, t0, t1, s0, s1, h⟩
  have hx := congrArg P.x h
  have hy := congrArg P.y h
  simp only [segPt] at hx hy
  rcases he with rfl | rfl | rfl | rfl | rfl | rfl | rfl | rfl
  · norm_num at hy
  · norm_num at hx; linarith
  · norm_num at hy
  · exact ⟨⟨3 / 4, 2 / 3, by norm_num, by norm_num, by norm_num, by norm_num, by norm_num [segPt]⟩, by norm_num [dirCross]⟩
  · norm_num at hy
  · exact ⟨⟨1 / 4, 1 / 3, by norm_num, by norm_num, by norm_num, by norm_num, by norm_num [segPt]⟩, by norm_num [dirCross]⟩
  · norm_num at hy
  · norm_num at hx; linarith

/-- Non-vacuity of `C121_refuted_inside`: a line between the two arms of a U. -/
example : ∃ r t0, polyIntersectLine (1 / 1000 : ℝ) [⟨0, 0⟩, ⟨6, 0⟩, ⟨6, 4⟩, ⟨4, 4⟩, ⟨4, 1⟩, ⟨2, 1⟩, ⟨2, 4⟩, ⟨0, 4⟩] ⟨⟨1, 2⟩, ⟨5, 2⟩⟩ = .ok r ∧ t0 < 1 ∧
    ∀ t, t0 < t → t ≤ 1 → ∀ s ∈ r, ¬ OnSeg (segPt ⟨⟨1, 2⟩, ⟨5, 2⟩⟩ t) s := by
  obtain ⟨r, t0, h1, h2, h3⟩ := C121_refuted_inside (1 / 1000) (by norm_num) [⟨0, 0⟩, ⟨6, 0⟩, ⟨6, 4⟩, ⟨4, 4⟩, ⟨4, 1⟩, ⟨2, 1⟩, ⟨2, 4⟩, ⟨0, 4⟩] (by simp)
    (by rintro a b ⟨⟩ ⟨⟩ -; norm_num [sqDist]) ⟨⟨1, 2⟩, ⟨5, 2⟩⟩ (by norm_num [sqDist]) general_U (by norm_num [polyPointInside, cycPairs, pairsFrom, edgeCrosses])
    (by norm_num [polyPointInside, cycPairs, pairsFrom, edgeCrosses])
    ⟨(⟨4, 4⟩, ⟨4, 1⟩), by rw [sides_U]; simp, 3 / 4, 2 / 3, by norm_num, by norm_num, by norm_num, by norm_num, by norm_num [segPt]⟩
  exact ⟨r, t0, h1, h2, fun t a b => (h3 t a b).2⟩

/-- Non-vacuity of `C121_clip_partial`: a line that leaves a triangle. -/
example : ∃ cuts : List (ℝ × ℝ), polyIntersectLine (1 / 1000 : ℝ) [⟨0, 0⟩, ⟨4, 0⟩, ⟨0, 4⟩] ⟨⟨1, 1⟩, ⟨1, -2⟩⟩ = .ok (partsOf (1 / 1000) ⟨⟨1, 1⟩, ⟨1, -2⟩⟩ cuts) ∧ ∃ c ∈ cuts, InCut (1 / 6) c := by
  have hs : sides [⟨0, 0⟩, ⟨4, 0⟩, ⟨0, 4⟩] = [(⟨0, 0⟩, ⟨4, 0⟩), (⟨4, 0⟩, ⟨0, 4⟩), (⟨0, 4⟩, ⟨0, 0⟩)] := rfl
  obtain ⟨cuts, h1, h2⟩ := C121_clip_partial (1 / 1000) (by norm_num) [⟨0, 0⟩, ⟨4, 0⟩, ⟨0, 4⟩] (by simp) (by rintro a b ⟨⟩ ⟨⟩ -; norm_num [sqDist]) ⟨⟨1, 1⟩, ⟨1, -2⟩⟩
    (by norm_num [sqDist]) (by
      intro e he
      rw [hs] at he
      simp only [List.mem_cons, List.not_mem_nil, or_false] at he
      rintro ⟨t, s, t0, t1, s0, s1, h⟩
      have hx := congrArg P.x h
      have hy := congrArg P.y h
      simp only [segPt] at hx hy
      rcases he with rfl | rfl | rfl
      · exact ⟨⟨1 / 3, 1 / 4, by norm_num, by norm_num, by norm_num, by norm_num, by norm_num [segPt]⟩, by norm_num [dirCross]⟩
      · norm_num at hx hy; linarith
      · norm_num at hx)
    (by intro _ h; norm_num [polyPointInside, cycPairs, pairsFrom, edgeCrosses] at h)
  refine ⟨cuts, h1, (h2 (1 / 6) (by norm_num) (by norm_num) ?_).1 (by norm_num [segPt, polyPointInside, cycPairs, pairsFrom, edgeCrosses])⟩
  intro e he
  rw [hs] at he
  simp only [List.mem_cons, List.not_mem_nil, or_false] at he
  rintro ⟨s, s0, s1, h⟩
  have hx := congrArg P.x h
  have hy := congrArg P.y h
  simp only [segPt] at hx hy
  rcases he with rfl | rfl | rfl
  · norm_num at hy
  · norm_num at hx hy; linarith
  · norm_num at hx

end Verif.Geom
