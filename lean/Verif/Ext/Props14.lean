import Verif.Ext.Quasink
import Verif.Ext.Props11
import Verif.Geom.Props5

/-!
# C152: what the plotter keeps
-/

set_option linter.unusedSectionVars false

namespace Verif.Ext
open Verif PyFloat PyTrig Geom

/-! ## Specification -/

/-- Specification: a point is inside a region: strictly within a box, or closer to the centre of a circle than its radius. -/
def InRegion : Region ℝ → P ℝ → Prop
  | .all, _ => True
  | .box b, p => b.p1.x < p.x ∧ p.x < b.p2.x ∧ b.p1.y < p.y ∧ p.y < b.p2.y
  | .ellipse e, p => sqDist p e.center < e.rx ^ 2

/-- Specification: no region, a box, or a circle (the program makes no other ellipse). -/
def Usable : Region ℝ → Prop
  | .ellipse e => e.rx = e.ry ∧ 0 < e.rx
  | _ => True

/-- Specification: a polygon is drawn if it has corners and all of them are inside the region. -/
def Whole (place : P ℝ → P ℝ) (r : Region ℝ) (vs : List (P ℝ)) : Prop := vs ≠ [] ∧ ∀ v ∈ vs, InRegion r (place v)

open Classical in
/-- Specification: a tile that is drawn, with its number of colour. -/
noncomputable def keptTile (place : P ℝ → P ℝ) (r : Region ℝ) : Call ℝ → Option (List (P ℝ) × ℝ)
  | .polygon vs c => if Whole place r vs then some (vs.map place, c) else none
  | _ => none

open Classical in
/-- Specification: a box that is drawn, with its number of colour. -/
noncomputable def keptBox (place : P ℝ → P ℝ) (r : Region ℝ) : Call ℝ → Option (List (P ℝ) × ℝ)
  | .segpoly vs c => if Whole place r vs then some (vs.map place, c) else none
  | _ => none

/-- Specification: a segment, where it is drawn. -/
def placedSegment (place : P ℝ → P ℝ) : Call ℝ → Option (Line ℝ)
  | .segment a b => some ⟨place a, place b⟩
  | _ => none

/-- Specification: the points named in a call. -/
def pointsIn : Call ℝ → List (P ℝ)
  | .polygon vs _ => vs
  | .segment a b => [a, b]
  | .segpoly vs _ => vs

/-- Specification: what the plotter holds: the tiles and boxes that lie inside the region as a whole, with their colours, in order; all the segments; how many tiles have each colour; and the colours of the boxes. -/
structure Collected (place : P ℝ → P ℝ) (r : Region ℝ) (calls : List (Call ℝ)) (pl : Plot ℝ) : Prop where
  polygons : pl.polygons = (calls.filterMap (keptTile place r)).map Prod.fst
  colors : pl.polygonColors = (calls.filterMap (keptTile place r)).map Prod.snd
  segments : pl.segments = calls.filterMap (placedSegment place)
  segpolys : pl.segpolys = (calls.filterMap (keptBox place r)).map Prod.fst
  segColors : pl.segpolyColors = (calls.filterMap (keptBox place r)).map Prod.snd
  keys : (pl.colorCount.map Prod.fst).Nodup
  counts : ∀ c n, (c, n) ∈ pl.colorCount ↔ n = pl.polygonColors.count c ∧ c ∈ pl.polygonColors
  segKeys : (pl.segCount.map Prod.fst).Nodup
  segCounts : ∀ c, c ∈ pl.segCount.map Prod.fst ↔ c ∈ pl.segpolyColors

/-! ## Proofs -/

theorem inside_eq (eps : ℝ) (heps : 0 < eps) (r : Region ℝ) (hr : Usable r) (p : P ℝ) [Decidable (InRegion r p)] :
    r.inside eps p = .ok (decide (InRegion r p)) := by
  cases r with
  | all =>
    have h : InRegion .all p := trivial
    simp only [Region.inside, h, decide_true]
  | box b =>
    have h : b.pointInside p = decide (InRegion (.box b) p) := by
      rw [Bool.eq_iff_iff, decide_eq_true_eq]
      simp [Box.pointInside, InRegion, and_assoc]
    simp only [Region.inside, h]
  | ellipse e =>
    obtain ⟨h1, h2⟩ := hr
    have hc : e.isCircle eps = true := by
      unfold Ell.isCircle
      rw [floatEq_iff, h1]
      simpa using heps
    unfold Region.inside Ell.pointInside
    simp only [hc, Bool.true_or, if_true, ← h1]
    simp [pdiv, h2.ne', bind, Except.bind, pure, Except.pure]
    congr 1
    unfold InRegion sqDist
    simp only [P.sub, real_sub]
    have e : (p.x - e.center.x) / e.rx * ((p.x - e.center.x) / e.rx) + (p.y - e.center.y) / e.rx * ((p.y - e.center.y) / e.rx)
        = ((p.x - e.center.x) ^ 2 + (p.y - e.center.y) ^ 2) / e.rx ^ 2 := by field_simp
    rw [e, div_lt_one (by positivity)]

section
variable {o : PlotOpts ℝ} {place : P ℝ → P ℝ} (heps : 0 < o.eps) (hr : Usable o.region)
include heps hr

open Classical in
theorem placeFrom_eq (vs : List (P ℝ)) (hp : ∀ v ∈ vs, project o.proj (o.matrix.apply v) = .ok (place v)) :
    ∃ n, placeFrom o vs = .ok (vs.map place, n) ∧ (n = 0 ↔ ∀ v ∈ vs, InRegion o.region (place v)) := by
  induction vs with
  | nil => exact ⟨0, rfl, by simp⟩
  | cons v vs ih =>
    obtain ⟨n, h1, h2⟩ := ih fun w hw => hp w (List.mem_cons_of_mem _ hw)
    have hv := hp v List.mem_cons_self
    have hin := inside_eq o.eps heps o.region hr (place v)
    refine ⟨if InRegion o.region (place v) then n else n + 1, ?_, ?_⟩
    · simp only [placeFrom, hv, hin, h1, bind, Except.bind, pure, Except.pure]
      by_cases h : InRegion o.region (place v) <;> simp [h]
    · by_cases h : InRegion o.region (place v)
      · simp [h, h2]
      · simp [h]

open Classical in
theorem plotPlace_eq (vs : List (P ℝ)) (hp : ∀ v ∈ vs, project o.proj (o.matrix.apply v) = .ok (place v)) :
    plotPlace o vs = .ok (if Whole place o.region vs then vs.map place else []) := by
  obtain ⟨n, h1, h2⟩ := placeFrom_eq heps hr vs hp
  simp only [plotPlace, h1, bind, Except.bind, pure, Except.pure]
  congr 1
  by_cases hv : vs = []
  · subst hv
    simp
  by_cases h : ∀ v ∈ vs, InRegion o.region (place v)
  · have hn : n = 0 := h2.2 h
    have hw : Whole place o.region vs := ⟨hv, h⟩
    rw [if_neg (by omega), if_pos hw]
  · have hn : n ≠ 0 := fun e => h (h2.1 e)
    have hw : ¬ Whole place o.region vs := fun hw => h hw.2
    rw [if_pos (by omega), if_neg hw]
end

theorem dictHas_iff (d : List (ℝ × Nat)) (c : ℝ) : dictHas d c = true ↔ c ∈ d.map Prod.fst := by
  simp only [dictHas, List.any_eq_true, real_beq, List.mem_map]
  simp

theorem dictIncr_keys (d d' : List (ℝ × Nat)) (c : ℝ) (h : dictIncr d c = .ok d') : d'.map Prod.fst = d.map Prod.fst := by
  unfold dictIncr at h
  split at h
  · injection h with h
    subst h
    rw [List.map_map]
    refine List.map_congr_left ?_
    intro e _
    simp only [Function.comp_apply]
    split <;> rfl
  · cases h

theorem growBox_rest (points : List (P ℝ)) : ∀ pl : Plot ℝ, (growBox pl points).polygons = pl.polygons ∧ (growBox pl points).polygonColors = pl.polygonColors ∧
    (growBox pl points).segments = pl.segments ∧ (growBox pl points).segpolys = pl.segpolys ∧ (growBox pl points).segpolyColors = pl.segpolyColors ∧
    (growBox pl points).colorCount = pl.colorCount ∧ (growBox pl points).segCount = pl.segCount := by
  induction points with
  | nil => intro pl; simp [growBox]
  | cons p ps ih =>
    intro pl
    exact ih _

/-- One more tile of a colour. -/
theorem counts_step (d : List (ℝ × Nat)) (colors : List ℝ) (c : ℝ) (hk : (d.map Prod.fst).Nodup) (hd : ∀ a n, (a, n) ∈ d ↔ n = colors.count a ∧ a ∈ colors) :
    ∃ d', bumpCount d d c = .ok d' ∧ (d'.map Prod.fst).Nodup ∧
      ∀ a n, (a, n) ∈ d' ↔ n = (colors ++ [c]).count a ∧ a ∈ colors ++ [c] := by
  have hkeys : ∀ a, a ∈ d.map Prod.fst ↔ a ∈ colors := by
    intro a
    simp only [List.mem_map, Prod.exists, exists_and_right, exists_eq_right]
    constructor
    · rintro ⟨n, hn⟩
      exact ((hd a n).1 hn).2
    · intro ha
      exact ⟨_, (hd a _).2 ⟨rfl, ha⟩⟩
  unfold bumpCount
  by_cases hc : dictHas d c = true
  · have hcm : c ∈ colors := (hkeys c).1 ((dictHas_iff d c).1 hc)
    rw [if_pos hc]
    have hi : dictIncr d c = .ok (d.map fun e => if beq e.1 c then (e.1, e.2 + 1) else e) := by simp [dictIncr, hc]
    refine ⟨_, hi, by rw [dictIncr_keys d _ c hi]; exact hk, ?_⟩
    intro a n
    simp only [List.mem_map, Prod.exists]
    constructor
    · rintro ⟨b, m, hm, he⟩
      obtain ⟨h1, h2⟩ := (hd b m).1 hm
      by_cases hb : b = c
      · subst hb
        simp at he
        obtain ⟨rfl, rfl⟩ := he
        simp [List.count_append, h1, h2]
      · simp [hb] at he
        obtain ⟨rfl, rfl⟩ := he
        have hb' : ¬ c = b := fun e => hb e.symm
        simp [List.count_append, h1, h2, hb']
    · rintro ⟨h1, h2⟩
      by_cases ha : a = c
      · subst ha
        refine ⟨a, colors.count a, (hd a _).2 ⟨rfl, hcm⟩, ?_⟩
        simp [h1, List.count_append]
      · have ha' : ¬ c = a := fun e => ha e.symm
        have hac : a ∈ colors := by simpa [ha] using h2
        refine ⟨a, n, (hd a n).2 ⟨by simpa [List.count_append, ha'] using h1, hac⟩, ?_⟩
        simp [ha]
  · have hcm : c ∉ colors := fun h => hc ((dictHas_iff d c).2 ((hkeys c).2 h))
    have hcf : dictHas d c = false := by simpa using hc
    rw [if_neg hc]
    refine ⟨d ++ [(c, 1)], by simp [dictSet, hcf], ?_, ?_⟩
    · rw [List.map_append, List.nodup_append]
      refine ⟨hk, by simp, ?_⟩
      intro a ha b hb
      simp at hb
      subst hb
      rintro rfl
      exact hcm ((hkeys a).1 ha)
    · intro a n
      rw [List.mem_append, hd]
      constructor
      · rintro (⟨h1, h2⟩ | h)
        · have hac : ¬ c = a := fun e => hcm (e ▸ h2)
          simp [List.count_append, h1, h2, hac]
        · simp at h
          obtain ⟨rfl, rfl⟩ := h
          simp [List.count_append, List.count_eq_zero_of_not_mem hcm]
      · rintro ⟨h1, h2⟩
        by_cases ha : a = c
        · subst ha
          right
          simp [h1, List.count_append, List.count_eq_zero_of_not_mem hcm]
        · left
          have ha' : ¬ c = a := fun e => ha e.symm
          exact ⟨by simpa [List.count_append, ha'] using h1, by simpa [ha] using h2⟩

/-- The colour of one more box. -/
theorem segKeys_step (d : List (ℝ × Nat)) (colors : List ℝ) (c : ℝ) (hk : (d.map Prod.fst).Nodup) (hd : ∀ a, a ∈ d.map Prod.fst ↔ a ∈ colors) :
    ((dictSet d c 1).map Prod.fst).Nodup ∧ ∀ a, a ∈ (dictSet d c 1).map Prod.fst ↔ a ∈ colors ++ [c] := by
  unfold dictSet
  by_cases hc : dictHas d c = true
  · rw [if_pos hc]
    have e : (d.map fun e => if beq e.1 c then (e.1, 1) else e).map Prod.fst = d.map Prod.fst := by
      rw [List.map_map]
      refine List.map_congr_left ?_
      intro e _
      simp only [Function.comp_apply]
      split <;> rfl
    rw [e]
    refine ⟨hk, ?_⟩
    intro a
    have hcm : c ∈ colors := (hd c).1 ((dictHas_iff d c).1 hc)
    rw [hd, List.mem_append, List.mem_singleton]
    constructor
    · exact Or.inl
    · rintro (h | rfl)
      · exact h
      · exact hcm
  · rw [if_neg hc]
    have hcm : c ∉ d.map Prod.fst := fun h => hc ((dictHas_iff d c).2 h)
    constructor
    · rw [List.map_append, List.nodup_append]
      refine ⟨hk, by simp, ?_⟩
      intro a ha b hb
      simp at hb
      subst hb
      rintro rfl
      exact hcm ha
    · intro a
      rw [List.map_append, List.mem_append, hd, List.mem_append]
      simp

/-- One call: the plotter collects it, or a box has the colour of an earlier tile but not of an earlier box, and it fails with a `KeyError`. -/
theorem plotCall_step {o : PlotOpts ℝ} {place : P ℝ → P ℝ} (heps : 0 < o.eps) (hr : Usable o.region) (calls : List (Call ℝ)) (pl : Plot ℝ) (call : Call ℝ)
    (hp : ∀ v ∈ pointsIn call, project o.proj (o.matrix.apply v) = .ok (place v)) (h : Collected place o.region calls pl) :
    (∃ pl', plotCall o pl call = .ok pl' ∧ Collected place o.region (calls ++ [call]) pl') ∨
    (plotCall o pl call = .error .keyError ∧ ∃ vs c, call = .segpoly vs c ∧ Whole place o.region vs ∧ c ∈ pl.polygonColors ∧ c ∉ pl.segpolyColors) := by
  classical
  have hkeys : ∀ a, a ∈ pl.colorCount.map Prod.fst ↔ a ∈ pl.polygonColors := by
    intro a
    simp only [List.mem_map, Prod.exists, exists_and_right, exists_eq_right]
    constructor
    · rintro ⟨n, hn⟩
      exact ((h.counts a n).1 hn).2
    · intro ha
      exact ⟨_, (h.counts a _).2 ⟨rfl, ha⟩⟩
  cases call with
  | polygon vs c =>
    left
    have hpl := plotPlace_eq heps hr vs hp
    by_cases hw : Whole place o.region vs
    · rw [if_pos hw] at hpl
      have hne : (vs.map place).isEmpty = false := by simpa using hw.1
      obtain ⟨g1, g2, g3, g4, g5, g6, g7⟩ := growBox_rest (vs.map place) pl
      obtain ⟨d', c1, c2, c3⟩ := counts_step pl.colorCount pl.polygonColors c h.keys h.counts
      refine ⟨{ growBox pl (vs.map place) with polygons := pl.polygons ++ [vs.map place], colorCount := d', polygonColors := pl.polygonColors ++ [c] }, ?_, ?_⟩
      · simp only [plotCall, plotPolygon, hpl, hne, Bool.false_eq_true, if_false, bind, Except.bind, pure, Except.pure, g6, g1, g2, c1]
        rfl
      · refine ⟨?_, ?_, ?_, ?_, ?_, c2, c3, ?_, ?_⟩
        · simp [h.polygons, keptTile, hw]
        · simp [h.colors, keptTile, hw]
        · simp [g3, h.segments, placedSegment]
        · simp [g4, h.segpolys, keptBox]
        · simp [g5, h.segColors, keptBox]
        · simp only [g7]; exact h.segKeys
        · simp only [g7, g5]; exact h.segCounts
    · rw [if_neg hw] at hpl
      refine ⟨pl, ?_, ?_⟩
      · simp only [plotCall, plotPolygon, hpl, bind, Except.bind]
        rfl
      · have e1 : (calls ++ [Call.polygon vs c]).filterMap (keptTile place o.region) = calls.filterMap (keptTile place o.region) := by simp [keptTile, hw]
        have e2 : (calls ++ [Call.polygon vs c]).filterMap (keptBox place o.region) = calls.filterMap (keptBox place o.region) := by simp [keptBox]
        have e3 : (calls ++ [Call.polygon vs c]).filterMap (placedSegment place) = calls.filterMap (placedSegment place) := by simp [placedSegment]
        exact ⟨by rw [e1]; exact h.polygons, by rw [e1]; exact h.colors, by rw [e3]; exact h.segments, by rw [e2]; exact h.segpolys, by rw [e2]; exact h.segColors,
          h.keys, h.counts, h.segKeys, h.segCounts⟩
  | segment a b =>
    left
    have ha := hp a (by simp [pointsIn])
    have hb := hp b (by simp [pointsIn])
    refine ⟨{ pl with segments := pl.segments ++ [⟨place a, place b⟩] }, ?_, ?_⟩
    · simp only [plotCall, plotSegment, ha, hb, bind, Except.bind, pure, Except.pure]
    · exact ⟨by simp [h.polygons, keptTile], by simp [h.colors, keptTile], by simp [h.segments, placedSegment], by simp [h.segpolys, keptBox],
        by simp [h.segColors, keptBox], h.keys, h.counts, h.segKeys, h.segCounts⟩
  | segpoly vs c =>
    have hpl := plotPlace_eq heps hr vs hp
    by_cases hw : Whole place o.region vs
    · rw [if_pos hw] at hpl
      have hne : (vs.map place).isEmpty = false := by simpa using hw.1
      have done : ∀ d' : List (ℝ × Nat), bumpCount pl.colorCount pl.segCount c = .ok d' →
          (d'.map Prod.fst).Nodup → (∀ a, a ∈ d'.map Prod.fst ↔ a ∈ pl.segpolyColors ++ [c]) →
          ∃ pl', plotCall o pl (.segpoly vs c) = .ok pl' ∧ Collected place o.region (calls ++ [.segpoly vs c]) pl' := by
        intro d' c1 c2 c3
        refine ⟨{ pl with segpolys := pl.segpolys ++ [vs.map place], segCount := d', segpolyColors := pl.segpolyColors ++ [c] }, ?_, ?_⟩
        · simp only [plotCall, plotSegpoly, hpl, hne, Bool.false_eq_true, if_false, bind, Except.bind, pure, Except.pure, c1]
        · exact ⟨by simp [h.polygons, keptTile], by simp [h.colors, keptTile], by simp [h.segments, placedSegment], by simp [h.segpolys, keptBox, hw],
            by simp [h.segColors, keptBox, hw], h.keys, h.counts, c2, c3⟩
      by_cases hc : dictHas pl.colorCount c = true
      · by_cases hs : dictHas pl.segCount c = true
        · left
          have hi : dictIncr pl.segCount c = .ok (pl.segCount.map fun e => if beq e.1 c then (e.1, e.2 + 1) else e) := by simp [dictIncr, hs]
          refine done _ (by rw [bumpCount, if_pos hc]; exact hi) (by rw [dictIncr_keys _ _ c hi]; exact h.segKeys) ?_
          intro a
          have hcm : c ∈ pl.segpolyColors := (h.segCounts c).1 ((dictHas_iff _ c).1 hs)
          rw [dictIncr_keys _ _ c hi, h.segCounts, List.mem_append, List.mem_singleton]
          constructor
          · exact Or.inl
          · rintro (h | rfl)
            · exact h
            · exact hcm
        · right
          have hsf : dictHas pl.segCount c = false := by simpa using hs
          refine ⟨?_, vs, c, rfl, hw, (hkeys c).1 ((dictHas_iff _ c).1 hc), fun hm => hs ((dictHas_iff _ c).2 ((h.segCounts c).2 hm))⟩
          simp only [plotCall, plotSegpoly, hpl, hne, Bool.false_eq_true, if_false, bind, Except.bind, bumpCount, hc, if_true, dictIncr, hsf]
      · left
        obtain ⟨k1, k2⟩ := segKeys_step pl.segCount pl.segpolyColors c h.segKeys h.segCounts
        exact done _ (by rw [bumpCount, if_neg hc]) k1 k2
    · left
      rw [if_neg hw] at hpl
      refine ⟨pl, ?_, ?_⟩
      · simp only [plotCall, plotSegpoly, hpl, bind, Except.bind]
        rfl
      · have e1 : (calls ++ [Call.segpoly vs c]).filterMap (keptTile place o.region) = calls.filterMap (keptTile place o.region) := by simp [keptTile]
        have e2 : (calls ++ [Call.segpoly vs c]).filterMap (keptBox place o.region) = calls.filterMap (keptBox place o.region) := by simp [keptBox, hw]
        have e3 : (calls ++ [Call.segpoly vs c]).filterMap (placedSegment place) = calls.filterMap (placedSegment place) := by simp [placedSegment]
        exact ⟨by rw [e1]; exact h.polygons, by rw [e1]; exact h.colors, by rw [e3]; exact h.segments, by rw [e2]; exact h.segpolys, by rw [e2]; exact h.segColors,
          h.keys, h.counts, h.segKeys, h.segCounts⟩

theorem collected_empty (o : PlotOpts ℝ) (place : P ℝ → P ℝ) : Collected place o.region [] (Plot.empty o) := by
  refine ⟨rfl, rfl, rfl, rfl, rfl, by simp [Plot.empty], ?_, by simp [Plot.empty], ?_⟩ <;> simp [Plot.empty]

theorem fold_collected {o : PlotOpts ℝ} {place : P ℝ → P ℝ} (heps : 0 < o.eps) (hr : Usable o.region) (calls : List (Call ℝ)) :
    ∀ (before : List (Call ℝ)) (pl : Plot ℝ), (∀ call ∈ calls, ∀ v ∈ pointsIn call, project o.proj (o.matrix.apply v) = .ok (place v)) → Collected place o.region before pl →
    (∃ pl', calls.foldlM (plotCall o) pl = .ok pl' ∧ Collected place o.region (before ++ calls) pl') ∨
    (calls.foldlM (plotCall o) pl = .error .keyError ∧ ∃ pre vs c post, before ++ calls = pre ++ .segpoly vs c :: post ∧ Whole place o.region vs ∧
      c ∈ (pre.filterMap (keptTile place o.region)).map Prod.snd ∧ c ∉ (pre.filterMap (keptBox place o.region)).map Prod.snd) := by
  induction calls with
  | nil =>
    intro before pl _ h
    exact Or.inl ⟨pl, rfl, by simpa using h⟩
  | cons call calls ih =>
    intro before pl hp h
    rcases plotCall_step heps hr before pl call (hp call List.mem_cons_self) h with ⟨pl', h1, h2⟩ | ⟨h1, vs, c, rfl, h3, h4, h5⟩
    · have := ih (before ++ [call]) pl' (fun x hx => hp x (List.mem_cons_of_mem _ hx)) h2
      rw [List.foldlM_cons, h1]
      simpa [bind, Except.bind] using this
    · right
      refine ⟨by rw [List.foldlM_cons, h1]; rfl, before, vs, c, calls, rfl, h3, by rw [← h.colors]; exact h4, by rw [← h.segColors]; exact h5⟩

/-- **C152 (what is kept).** As long as no box gets the colour of a tile, the plotter collects everything it is told of without an exception: exactly those tiles and boxes all of whose corners, where they
are drawn, are inside the clipping region, in order and with their colours, and all segments.  The table of colours has every colour of a tile once, with the number of tiles of that colour. -/
theorem C152_kept_partial (o : PlotOpts ℝ) (place : P ℝ → P ℝ) (heps : 0 < o.eps) (hr : Usable o.region) (calls : List (Call ℝ))
    (hp : ∀ call ∈ calls, ∀ v ∈ pointsIn call, project o.proj (o.matrix.apply v) = .ok (place v))
    (hc : ∀ vs ws c, .polygon vs c ∈ calls → .segpoly ws c ∈ calls → False) :
    ∃ pl, plotCalls o calls = .ok pl ∧ Collected place o.region calls pl := by
  rcases fold_collected heps hr calls [] (Plot.empty o) hp (collected_empty o place) with ⟨pl, h1, h2⟩ | ⟨-, pre, vs, c, post, h1, -, h3, -⟩
  · exact ⟨pl, h1, by simpa using h2⟩
  · exfalso
    rw [List.nil_append] at h1
    simp only [List.mem_map, List.mem_filterMap] at h3
    obtain ⟨⟨ws, c'⟩, ⟨call, hm, hk⟩, rfl⟩ := h3
    cases call with
    | polygon us d =>
      have e : d = c' := by
        simp only [keptTile, Option.ite_none_right_eq_some, Option.some.injEq, Prod.mk.injEq] at hk
        exact hk.2.2
      subst e
      exact hc us vs d (by rw [h1]; exact List.mem_append_left _ hm) (by rw [h1]; simp)
    | segment a b => simp [keptTile] at hk
    | segpoly us d => simp [keptTile] at hk

/-- The same when the run is known to have succeeded. -/
theorem C152_kept (o : PlotOpts ℝ) (place : P ℝ → P ℝ) (heps : 0 < o.eps) (hr : Usable o.region) (calls : List (Call ℝ)) (pl : Plot ℝ)
    (hp : ∀ call ∈ calls, ∀ v ∈ pointsIn call, project o.proj (o.matrix.apply v) = .ok (place v)) (h : plotCalls o calls = .ok pl) :
    Collected place o.region calls pl := by
  rcases fold_collected heps hr calls [] (Plot.empty o) hp (collected_empty o place) with ⟨pl', h1, h2⟩ | ⟨h1, -⟩
  · have e : (.ok pl' : Except PyErr (Plot ℝ)) = .ok pl := h1.symm.trans h
    cases e
    simpa using h2
  · exact absurd (h1.symm.trans h) (by simp)

/-- **C152 (refuted): the boxes can make the run fail.**  The plotter looks for the colour of a box among the colours of the tiles: a box inside the region with the colour of an earlier tile, the first of that
colour, raises a `KeyError`, whatever else is plotted afterwards. -/
theorem C152_boxes_refuted (o : PlotOpts ℝ) (place : P ℝ → P ℝ) (heps : 0 < o.eps) (hr : Usable o.region) (vs ws : List (P ℝ)) (c : ℝ) (later : List (Call ℝ))
    (hp : ∀ v ∈ vs ++ ws, project o.proj (o.matrix.apply v) = .ok (place v)) (hv : Whole place o.region vs) (hw : Whole place o.region ws) :
    plotCalls o (.polygon vs c :: .segpoly ws c :: later) = .error .keyError := by
  have hp1 : ∀ v ∈ pointsIn (.polygon vs c), project o.proj (o.matrix.apply v) = .ok (place v) := fun v hv => hp v (List.mem_append_left _ hv)
  have hp2 : ∀ v ∈ pointsIn (.segpoly ws c), project o.proj (o.matrix.apply v) = .ok (place v) := fun v hv => hp v (List.mem_append_right _ hv)
  unfold plotCalls
  rw [List.foldlM_cons]
  rcases plotCall_step heps hr [] (Plot.empty o) (.polygon vs c) hp1 (collected_empty o place) with ⟨pl, h1, h2⟩ | ⟨-, us, d, he, -⟩
  · rw [h1]
    show (List.foldlM (plotCall o) pl (.segpoly ws c :: later)) = _
    rw [List.foldlM_cons]
    have hpl := plotPlace_eq heps hr ws hp2
    classical
    rw [if_pos hw] at hpl
    have hne : (ws.map place).isEmpty = false := by simpa using hw.1
    have hcol : dictHas pl.colorCount c = true := by
      rw [dictHas_iff, List.mem_map]
      refine ⟨(c, _), (h2.counts c _).2 ⟨rfl, ?_⟩, rfl⟩
      rw [h2.colors]
      simp [keptTile, hv]
    have hseg : dictHas pl.segCount c = false := by
      rw [← Bool.not_eq_true, dictHas_iff, h2.segCounts, h2.segColors]
      simp [keptBox]
    have e : plotCall o pl (.segpoly ws c) = .error .keyError := by
      simp only [plotCall, plotSegpoly, hpl, hne, Bool.false_eq_true, if_false, bind, Except.bind, bumpCount, hcol, if_true, dictIncr, hseg]
    rw [e]
    rfl
  · cases he

end Verif.Ext
