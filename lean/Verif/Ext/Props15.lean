import Verif.Ext.Props14

/-!
# C152: what the plotter keeps (continued): the whole picture, and its bounding box
-/

set_option linter.unusedSectionVars false

namespace Verif.Ext
open Verif PyFloat PyTrig Geom

theorem inRegion_way (r : Region ℝ) (m : Mat ℝ) (a b : P ℝ) (k : ℝ) (h0 : 0 ≤ k) (h1 : k ≤ 1) (ha : InRegion r (m.apply a)) (hb : InRegion r (m.apply b)) :
    InRegion r (m.apply (wayPoint k a b)) := by
  cases r with
  | all => trivial
  | box bx =>
    obtain ⟨a1, a2, a3, a4⟩ := ha
    obtain ⟨b1, b2, b3, b4⟩ := hb
    simp only [Mat.apply, wayPoint, real_add, real_mul] at *
    have conv : ∀ u v w : ℝ, u < v → u < w → u < v + k * (w - v) := by
      intro u v w h h'
      rcases eq_or_lt_of_le h0 with e | e
      · rw [← e]; linarith
      · nlinarith
    have conv' : ∀ u v w : ℝ, v < u → w < u → v + k * (w - v) < u := by
      intro u v w h h'
      rcases eq_or_lt_of_le h0 with e | e
      · rw [← e]; linarith
      · nlinarith
    have ex : m.a * (a.x + k * (b.x - a.x)) + m.b * (a.y + k * (b.y - a.y)) + m.c
        = (m.a * a.x + m.b * a.y + m.c) + k * ((m.a * b.x + m.b * b.y + m.c) - (m.a * a.x + m.b * a.y + m.c)) := by ring
    have ey : m.d * (a.x + k * (b.x - a.x)) + m.e * (a.y + k * (b.y - a.y)) + m.f
        = (m.d * a.x + m.e * a.y + m.f) + k * ((m.d * b.x + m.e * b.y + m.f) - (m.d * a.x + m.e * a.y + m.f)) := by ring
    refine ⟨?_, ?_, ?_, ?_⟩
    · show _ < m.a * (a.x + k * (b.x - a.x)) + m.b * (a.y + k * (b.y - a.y)) + m.c
      rw [ex]; exact conv _ _ _ a1 b1
    · show m.a * (a.x + k * (b.x - a.x)) + m.b * (a.y + k * (b.y - a.y)) + m.c < _
      rw [ex]; exact conv' _ _ _ a2 b2
    · show _ < m.d * (a.x + k * (b.x - a.x)) + m.e * (a.y + k * (b.y - a.y)) + m.f
      rw [ey]; exact conv _ _ _ a3 b3
    · show m.d * (a.x + k * (b.x - a.x)) + m.e * (a.y + k * (b.y - a.y)) + m.f < _
      rw [ey]; exact conv' _ _ _ a4 b4
  | ellipse e =>
    simp only [InRegion, sqDist, Mat.apply, wayPoint, real_add, real_mul] at *
    have ex : m.a * (a.x + k * (b.x - a.x)) + m.b * (a.y + k * (b.y - a.y)) + m.c - e.center.x
        = (1 - k) * (m.a * a.x + m.b * a.y + m.c - e.center.x) + k * (m.a * b.x + m.b * b.y + m.c - e.center.x) := by ring
    have ey : m.d * (a.x + k * (b.x - a.x)) + m.e * (a.y + k * (b.y - a.y)) + m.f - e.center.y
        = (1 - k) * (m.d * a.x + m.e * a.y + m.f - e.center.y) + k * (m.d * b.x + m.e * b.y + m.f - e.center.y) := by ring
    rw [ex, ey]
    generalize m.a * a.x + m.b * a.y + m.c - e.center.x = x at *
    generalize m.a * b.x + m.b * b.y + m.c - e.center.x = x' at *
    generalize m.d * a.x + m.e * a.y + m.f - e.center.y = y at *
    generalize m.d * b.x + m.e * b.y + m.f - e.center.y = y' at *
    have key : ((1 - k) * x + k * x') ^ 2 + ((1 - k) * y + k * y') ^ 2
        = (1 - k) * (x ^ 2 + y ^ 2) + k * (x' ^ 2 + y' ^ 2) - k * (1 - k) * ((x - x') ^ 2 + (y - y') ^ 2) := by ring
    have hq : 0 ≤ k * (1 - k) * ((x - x') ^ 2 + (y - y') ^ 2) := mul_nonneg (mul_nonneg h0 (by linarith)) (by positivity)
    rw [key]
    rcases eq_or_lt_of_le h0 with e0 | e0
    · rw [← e0]; linarith
    · nlinarith

/-- The reply of the plotter: whether the whole tile is inside. -/
theorem plotReply_eq {o : PlotOpts ℝ} {place : P ℝ → P ℝ} (heps : 0 < o.eps) (hr : Usable o.region) (before : List (Call ℝ)) (vs : List (P ℝ)) (c : ℝ)
    (hp : ∀ v ∈ vs, project o.proj (o.matrix.apply v) = .ok (place v)) :
    plotReply o (before ++ [.polygon vs c]) = true ↔ Whole place o.region vs := by
  classical
  have h := plotPlace_eq heps hr vs hp
  unfold plotReply
  simp only [List.getLast?_append, List.getLast?_singleton, Option.some_or, h]
  by_cases hw : Whole place o.region vs
  · have hne := hw.1
    simp [hw, hne]
  · simp [hw]

/-- **C152 (answer).** The answer of `plot_polygon`, which decides whether `quasi.py` goes on to the segments of the tile, is whether the tile was kept. -/
theorem C152_answer (o : PlotOpts ℝ) (place : P ℝ → P ℝ) (heps : 0 < o.eps) (hr : Usable o.region) (before : List (Call ℝ)) (pl : Plot ℝ) (vs : List (P ℝ)) (c : ℝ)
    (hp : ∀ v ∈ vs, project o.proj (o.matrix.apply v) = .ok (place v)) (h : Collected place o.region before pl) :
    ∃ pl' b, plotPolygon o pl vs c = .ok (pl', b) ∧ (b = true ↔ Whole place o.region vs) ∧ plotReply o (before ++ [.polygon vs c]) = b := by
  classical
  have hrep := plotReply_eq heps hr before vs c hp
  have hpl := plotPlace_eq heps hr vs hp
  by_cases hw : Whole place o.region vs
  · rw [if_pos hw] at hpl
    have hne : (vs.map place).isEmpty = false := by simpa using hw.1
    obtain ⟨g1, g2, g3, g4, g5, g6, g7⟩ := growBox_rest (vs.map place) pl
    obtain ⟨d', c1, -, -⟩ := counts_step pl.colorCount pl.polygonColors c h.keys h.counts
    refine ⟨{ growBox pl (vs.map place) with
        polygons := (growBox pl (vs.map place)).polygons ++ [vs.map place]
        colorCount := d'
        polygonColors := (growBox pl (vs.map place)).polygonColors ++ [c] }, true, ?_, by simp [hw], hrep.2 hw⟩
    · simp only [plotPolygon, hpl, hne, Bool.false_eq_true, if_false, bind, Except.bind, pure, Except.pure, g6, c1]
  · rw [if_neg hw] at hpl
    refine ⟨pl, false, ?_, by simp [hw], ?_⟩
    · simp only [plotPolygon, hpl, bind, Except.bind]
      rfl
    · rw [← Bool.not_eq_true, hrep]
      exact hw

/-- Every end of a segment of a tile is a point between its corners. -/
theorem segs_good {q : Quasi ℝ} {a b c d : P ℝ} {segs : List (Call ℝ)} (hs : Segments q a b c d segs) (h0 : 0 ≤ q.ratio) (h1 : q.ratio ≤ 1) (Good : P ℝ → Prop)
    (hg : ∀ u v k, Good u → Good v → 0 ≤ k → k ≤ 1 → Good (wayPoint k u v)) (ga : Good a) (gb : Good b) (gc : Good c) (gd : Good d) :
    ∀ u v, .segment u v ∈ segs → Good u ∧ Good v := by
  have hab := hg a b _ ga gb h0 h1
  have hbc := hg b c _ gb gc h0 h1
  have hdc := hg d c _ gd gc h0 h1
  have had := hg a d _ ga gd h0 h1
  have mab := hg a b (1/2) ga gb (by norm_num) (by norm_num)
  have mbc := hg b c (1/2) gb gc (by norm_num) (by norm_num)
  have mdc := hg d c (1/2) gd gc (by norm_num) (by norm_num)
  have mad := hg a d (1/2) ga gd (by norm_num) (by norm_num)
  have mac := hg a c (1/2) ga gc (by norm_num) (by norm_num)
  have hj : ∀ (s : Call ℝ) (x y u v : P ℝ), Joins s x y → Good x → Good y → Call.segment u v = s → Good u ∧ Good v := by
    intro s x y u v hj gx gy e
    rcases hj with h | h
    · rw [← e] at h; cases h; exact ⟨gx, gy⟩
    · rw [← e] at h; cases h; exact ⟨gy, gx⟩
  intro u v hm
  by_cases hk : 1 ≤ kindOf q a b d ∧ kindOf q a b d ≤ 7
  swap
  · rw [hs.none hk] at hm; cases hm
  have hcases : kindOf q a b d = 1 ∨ kindOf q a b d = 2 ∨ kindOf q a b d = 3 ∨ kindOf q a b d = 4 ∨ kindOf q a b d = 5 ∨ kindOf q a b d = 6 ∨ kindOf q a b d = 7 := by omega
  rcases hcases with e | e | e | e | e | e | e
  · obtain ⟨s1, s2, rfl, j1, j2⟩ := hs.acute e
    simp only [List.mem_cons, List.not_mem_nil, or_false] at hm
    rcases lt_or_ge 0 (cornerDot b a d) with hd | hd
    · rcases hm with hm | hm
      · exact hj _ _ _ _ _ (j1 hd).1 hbc hdc hm
      · exact hj _ _ _ _ _ (j1 hd).2 had hab hm
    · rcases hm with hm | hm
      · exact hj _ _ _ _ _ (j2 hd).1 hab hbc hm
      · exact hj _ _ _ _ _ (j2 hd).2 hdc had hm
  · obtain ⟨s1, s2, rfl, j1, j2⟩ := hs.obtuse e
    simp only [List.mem_cons, List.not_mem_nil, or_false] at hm
    rcases lt_or_ge 0 (cornerDot b a d) with hd | hd
    · rcases hm with hm | hm
      · exact hj _ _ _ _ _ (j1 hd).1 hab hbc hm
      · exact hj _ _ _ _ _ (j1 hd).2 hdc had hm
    · rcases hm with hm | hm
      · exact hj _ _ _ _ _ (j2 hd).1 had hab hm
      · exact hj _ _ _ _ _ (j2 hd).2 hbc hdc hm
  · obtain ⟨j1, j2⟩ := hs.cross e
    by_cases hsp : q.splitCross = true ∧ q.ratio = 1 / 2
    · obtain ⟨s1, s2, s3, s4, hperm, k1, k2, k3, k4⟩ := j2 hsp.1 hsp.2
      have hm := hperm.mem_iff.1 hm
      simp only [List.mem_cons, List.not_mem_nil, or_false] at hm
      rcases hm with hm | hm | hm | hm
      · exact hj _ _ _ _ _ k1 mab mac hm
      · exact hj _ _ _ _ _ k2 mbc mac hm
      · exact hj _ _ _ _ _ k3 mdc mac hm
      · exact hj _ _ _ _ _ k4 mad mac hm
    · obtain ⟨s1, s2, hor, k1, k2⟩ := j1 hsp
      have hm : Call.segment u v = s1 ∨ Call.segment u v = s2 := by
        rcases hor with rfl | rfl
        · simpa using hm
        · simpa [or_comm] using hm
      rcases hm with hm | hm
      · exact hj _ _ _ _ _ k1 hab hdc hm
      · exact hj _ _ _ _ _ k2 hbc had hm
  · obtain ⟨s1, s2, s3, s4, s, vs, color, rfl, hperm, k1, k2, k3, k4, -, -⟩ := hs.rect e
    rw [List.mem_append] at hm
    rcases hm with hm | hm
    · have hm := hperm.mem_iff.1 hm
      simp only [List.mem_cons, List.not_mem_nil, or_false] at hm
      rcases hm with hm | hm | hm | hm
      · exact hj _ _ _ _ _ k1 hab hbc hm
      · exact hj _ _ _ _ _ k2 hbc hdc hm
      · exact hj _ _ _ _ _ k3 hdc had hm
      · exact hj _ _ _ _ _ k4 had hab hm
    · simp at hm
  · rw [hs.second e] at hm
    simp at hm
    obtain ⟨rfl, rfl⟩ := hm
    exact ⟨gb, gd⟩
  · rw [hs.first e] at hm
    simp at hm
    obtain ⟨rfl, rfl⟩ := hm
    exact ⟨ga, gc⟩
  · obtain ⟨j1, j2⟩ := hs.both e
    cases hsp : q.splitCross with
    | false =>
      rw [j1 hsp] at hm
      simp at hm
      rcases hm with ⟨rfl, rfl⟩ | ⟨rfl, rfl⟩
      · exact ⟨ga, gc⟩
      · exact ⟨gb, gd⟩
    | true =>
      rw [j2 hsp] at hm
      simp only [List.mem_cons, List.not_mem_nil, or_false, Call.segment.injEq] at hm
      rcases hm with ⟨rfl, rfl⟩ | ⟨rfl, rfl⟩ | ⟨rfl, rfl⟩ | ⟨rfl, rfl⟩
      · exact ⟨ga, mac⟩
      · exact ⟨mac, gc⟩
      · exact ⟨gb, mac⟩
      · exact ⟨mac, gd⟩

open Classical in
/-- **C152 (the picture).** Without projection, a run of the tiling with this plotter that succeeds keeps, of all the tiles of the tiling (C147), exactly those whose four corners, on the page, are inside the clipping
region; and nothing at all is kept outside of it: not a corner of a tile or a box, and, for ratios from 0 to 1, not an end of a segment. -/
theorem C152_picture (o : PlotOpts ℝ) (q : Quasi ℝ) (fuel : Nat) (calls : List (Call ℝ)) (pl : Plot ℝ) (heps : 0 < o.eps) (hr : Usable o.region) (hproj : o.proj = none)
    (hacc : q.accepts = plotReply o) (hq : quasi q fuel = some (.ok calls)) (hpl : plotCalls o calls = .ok pl) :
    (∃ (l : List ((Nat × Nat) × (Nat × Nat))) (tiles : List (List (P ℝ))), l.Nodup ∧ (∀ c, c ∈ l ↔ OnGrid q c ∧ Drawn q c) ∧ List.Forall₂ (IsTile q) l tiles ∧
      pl.polygons = (tiles.filter fun vs => decide (∀ v ∈ vs, InRegion o.region (o.matrix.apply v))).map fun vs => vs.map o.matrix.apply) ∧
    (∀ poly ∈ pl.polygons ++ pl.segpolys, ∀ p ∈ poly, InRegion o.region p) ∧
    (0 ≤ q.ratio → q.ratio ≤ 1 → ∀ s ∈ pl.segments, InRegion o.region s.p1 ∧ InRegion o.region s.p2) := by
  have hp : ∀ call ∈ calls, ∀ v ∈ pointsIn call, project o.proj (o.matrix.apply v) = .ok (o.matrix.apply v) := by
    intro call _ v _
    rw [hproj]
    rfl
  have hcol := C152_kept o o.matrix.apply heps hr calls pl hp hpl
  refine ⟨?_, ?_, ?_⟩
  · obtain ⟨l, h1, h2, -, h4⟩ := C147_tiles hq
    refine ⟨l, polygonsOf calls, h1, h2, h4, ?_⟩
    have hne : ∀ vs ∈ polygonsOf calls, vs ≠ [] := by
      intro vs hvs
      obtain ⟨a, b, c, d, rfl, -⟩ := C147_rhombi hq vs hvs
      simp
    rw [hcol.polygons]
    clear hcol hpl h4 h2 h1 hp hq
    induction calls with
    | nil => rfl
    | cons call calls ih =>
      cases call with
      | polygon vs c =>
        have hvs : vs ≠ [] := hne vs (by simp [polygonsOf])
        have ih' := ih fun ws hws => hne ws (by simp [polygonsOf, hws])
        by_cases hw : ∀ v ∈ vs, InRegion o.region (o.matrix.apply v)
        · have hW : Whole o.matrix.apply o.region vs := ⟨hvs, hw⟩
          rw [polygonsOf, List.filter_cons_of_pos (by simpa using hw), List.map_cons, ← ih', List.filterMap_cons]
          simp only [keptTile, hW, if_true, List.map_cons]
        · have hW : ¬ Whole o.matrix.apply o.region vs := fun h => hw h.2
          rw [polygonsOf, List.filter_cons_of_neg (by simpa using hw), ← ih', List.filterMap_cons]
          simp only [keptTile, hW, if_false]
      | segment a b => exact ih hne
      | segpoly vs c => exact ih hne
  · intro poly hpoly p hpm
    rw [hcol.polygons, hcol.segpolys, List.mem_append] at hpoly
    have key : ∀ vs, Whole o.matrix.apply o.region vs → vs.map o.matrix.apply = poly → InRegion o.region p := by
      intro vs hW e
      rw [← e, List.mem_map] at hpm
      obtain ⟨v, hv, rfl⟩ := hpm
      exact hW.2 v hv
    rcases hpoly with hpoly | hpoly
    all_goals
      simp only [List.mem_map, List.mem_filterMap] at hpoly
      obtain ⟨⟨xs, c⟩, ⟨call, -, hk⟩, rfl⟩ := hpoly
      cases call <;> simp only [keptTile, keptBox, Option.ite_none_right_eq_some, Option.some.injEq, Prod.mk.injEq, reduceCtorEq] at hk
      exact key _ hk.1 hk.2.1
  · intro h0 h1 s hs
    rw [hcol.segments] at hs
    simp only [List.mem_filterMap] at hs
    obtain ⟨call, hm, hk⟩ := hs
    cases call with
    | polygon vs c => simp [placedSegment] at hk
    | segpoly vs c => simp [placedSegment] at hk
    | segment a b =>
      simp only [placedSegment, Option.some.injEq] at hk
      subst hk
      obtain ⟨l, groups, _, _, hlen, hcalls, hfig⟩ := C149_figures hq
      rw [hcalls, List.mem_flatten] at hm
      obtain ⟨g, hg, hm⟩ := hm
      obtain ⟨i, hi, rfl⟩ := List.mem_iff_getElem.mp hg
      obtain ⟨v0, v1, v2, v3, segs, -, hgr, hrej, hok⟩ := hfig i _ _ (List.getElem?_eq_getElem (by omega)) (List.getElem?_eq_getElem hi)
      rw [hgr] at hm
      simp only [List.mem_cons, reduceCtorEq, false_or] at hm
      cases ha : q.accepts ((groups.take i).flatten ++ [.polygon [v0, v1, v2, v3] (q.rnd |cornerDot v1 v0 v3|)]) with
      | false => rw [hrej ha] at hm; cases hm
      | true =>
        have hs := hok ha
        rw [hacc] at ha
        have hw := (plotReply_eq (place := o.matrix.apply) heps hr _ _ _ (fun v _ => by rw [hproj]; rfl)).1 ha
        exact segs_good hs h0 h1 (fun p => InRegion o.region (o.matrix.apply p)) (fun u v k gu gv k0 k1 => inRegion_way _ _ u v k k0 k1 gu gv)
          (hw.2 v0 (by simp)) (hw.2 v1 (by simp)) (hw.2 v2 (by simp)) (hw.2 v3 (by simp)) a b hm

/-! ## The bounding box -/

/-- Specification: the bounds of a set of points. -/
def IsBounds (b : Box ℝ) (ps : List (P ℝ)) : Prop :=
  (∀ p ∈ ps, b.p1.x ≤ p.x ∧ p.x ≤ b.p2.x ∧ b.p1.y ≤ p.y ∧ p.y ≤ b.p2.y) ∧
  (∃ p ∈ ps, p.x = b.p1.x) ∧ (∃ p ∈ ps, p.x = b.p2.x) ∧ (∃ p ∈ ps, p.y = b.p1.y) ∧ ∃ p ∈ ps, p.y = b.p2.y

/-- What is known of the bounds while plotting. -/
structure Grown (fmax fmin : ℝ) (ps : List (P ℝ)) (pl : Plot ℝ) : Prop where
  xmin : pl.xmin = ps.foldl (fun m p => min m p.x) fmax
  ymin : pl.ymin = ps.foldl (fun m p => min m p.y) fmax
  xmax : pl.xmax = ps.foldl (fun m p => max m p.x) fmin
  ymax : pl.ymax = ps.foldl (fun m p => max m p.y) fmin

theorem growBox_grown {fmax fmin : ℝ} (xs : List (P ℝ)) : ∀ (ps : List (P ℝ)) (pl : Plot ℝ), Grown fmax fmin ps pl → Grown fmax fmin (ps ++ xs) (growBox pl xs) := by
  induction xs with
  | nil => intro ps pl h; simpa [growBox] using h
  | cons p xs ih =>
    intro ps pl h
    have := ih (ps ++ [p]) { pl with xmin := pmin pl.xmin p.x, ymin := pmin pl.ymin p.y, xmax := pmax pl.xmax p.x, ymax := pmax pl.ymax p.y }
      ⟨by simp [h.xmin, pmin_real], by simp [h.ymin, pmin_real], by simp [h.xmax, pmax_real], by simp [h.ymax, pmax_real]⟩
    simpa [growBox] using this

theorem plotCall_grown {o : PlotOpts ℝ} {pl pl' : Plot ℝ} {call : Call ℝ} {fmax fmin : ℝ} (h : plotCall o pl call = .ok pl') (hg : Grown fmax fmin pl.polygons.flatten pl) :
    Grown fmax fmin pl'.polygons.flatten pl' := by
  cases call with
  | polygon vs c =>
    unfold plotCall plotPolygon at h
    cases hpl : plotPlace o vs with
    | error e => simp [hpl, bind, Except.bind, Except.map] at h
    | ok xs =>
      simp only [hpl, bind, Except.bind] at h
      by_cases he : xs.isEmpty = true
      · simp [bind, Except.bind, Except.map, he, pure, Except.pure] at h
        subst h
        exact hg
      · simp only [he, if_false, Bool.false_eq_true] at h
        cases hb : bumpCount (growBox pl xs).colorCount (growBox pl xs).colorCount c with
        | error e => rw [hb] at h; simp [Except.map] at h
        | ok d =>
          rw [hb] at h
          simp only [pure, Except.pure, Except.map, Except.ok.injEq] at h
          subst h
          have := growBox_grown xs _ pl hg
          obtain ⟨g1, -⟩ := growBox_rest xs pl
          simp only [g1]
          rw [List.flatten_append, List.flatten_singleton]
          exact ⟨this.xmin, this.ymin, this.xmax, this.ymax⟩
  | segment a b =>
    unfold plotCall plotSegment at h
    simp only [bind, Except.bind, pure, Except.pure] at h
    split at h
    · cases h
    · split at h
      · cases h
      · cases h
        exact ⟨hg.xmin, hg.ymin, hg.xmax, hg.ymax⟩
  | segpoly vs c =>
    unfold plotCall plotSegpoly at h
    simp only [bind, Except.bind, pure, Except.pure] at h
    split at h
    · cases h
    · split at h
      · cases h
        exact hg
      · split at h
        · cases h
        · cases h
          exact ⟨hg.xmin, hg.ymin, hg.xmax, hg.ymax⟩

theorem plotCalls_grown {o : PlotOpts ℝ} (calls : List (Call ℝ)) : ∀ (pl pl' : Plot ℝ), calls.foldlM (plotCall o) pl = .ok pl' → Grown o.fmax o.fmin pl.polygons.flatten pl →
    Grown o.fmax o.fmin pl'.polygons.flatten pl' := by
  induction calls with
  | nil =>
    intro pl pl' h hg
    cases h
    exact hg
  | cons call calls ih =>
    intro pl pl' h hg
    rw [List.foldlM_cons] at h
    cases hc : plotCall o pl call with
    | error e => rw [hc] at h; simp [bind, Except.bind] at h
    | ok pl1 =>
      rw [hc] at h
      exact ih pl1 pl' h (plotCall_grown hc hg)

theorem foldl_min_spec (f : P ℝ → ℝ) (ps : List (P ℝ)) : ∀ m : ℝ, (∀ p ∈ ps, ps.foldl (fun m p => min m (f p)) m ≤ f p) ∧ ps.foldl (fun m p => min m (f p)) m ≤ m ∧
    (ps.foldl (fun m p => min m (f p)) m = m ∨ ∃ p ∈ ps, f p = ps.foldl (fun m p => min m (f p)) m) := by
  induction ps with
  | nil => intro m; simp
  | cons p ps ih =>
    intro m
    obtain ⟨h1, h2, h3⟩ := ih (min m (f p))
    simp only [List.foldl_cons]
    refine ⟨?_, h2.trans (min_le_left _ _), ?_⟩
    · intro x hx
      rcases List.mem_cons.1 hx with rfl | hx
      · exact h2.trans (min_le_right _ _)
      · exact h1 x hx
    · rcases h3 with h3 | ⟨x, hx, h3⟩
      · rcases min_choice m (f p) with hm | hm
        · left; rw [h3, hm]
        · right; exact ⟨p, List.mem_cons_self, by rw [h3, hm]⟩
      · right; exact ⟨x, List.mem_cons_of_mem _ hx, h3⟩

theorem foldl_max_spec (f : P ℝ → ℝ) (ps : List (P ℝ)) : ∀ m : ℝ, (∀ p ∈ ps, f p ≤ ps.foldl (fun m p => max m (f p)) m) ∧ m ≤ ps.foldl (fun m p => max m (f p)) m ∧
    (ps.foldl (fun m p => max m (f p)) m = m ∨ ∃ p ∈ ps, f p = ps.foldl (fun m p => max m (f p)) m) := by
  induction ps with
  | nil => intro m; simp
  | cons p ps ih =>
    intro m
    obtain ⟨h1, h2, h3⟩ := ih (max m (f p))
    simp only [List.foldl_cons]
    refine ⟨?_, (le_max_left _ _).trans h2, ?_⟩
    · intro x hx
      rcases List.mem_cons.1 hx with rfl | hx
      · exact (le_max_right _ _).trans h2
      · exact h1 x hx
    · rcases h3 with h3 | ⟨x, hx, h3⟩
      · rcases max_choice m (f p) with hm | hm
        · left; rw [h3, hm]
        · right; exact ⟨p, List.mem_cons_self, by rw [h3, hm]⟩
      · right; exact ⟨x, List.mem_cons_of_mem _ hx, h3⟩

/-- **C152 (bounding box).** The box that is drawn around the tiles is their bounding box, provided some corner is not left of, and some corner not below, the smallest positive number (and not all are beyond the largest). -/
theorem C152_bbox_partial (o : PlotOpts ℝ) (calls : List (Call ℝ)) (pl : Plot ℝ) (h : plotCalls o calls = .ok pl)
    (hx : ∃ p ∈ pl.polygons.flatten, o.fmin ≤ p.x ∧ p.x ≤ o.fmax) (hy : ∃ p ∈ pl.polygons.flatten, o.fmin ≤ p.y ∧ p.y ≤ o.fmax) :
    IsBounds pl.bbox pl.polygons.flatten := by
  have hg := plotCalls_grown calls (Plot.empty o) pl h ⟨rfl, rfl, rfl, rfl⟩
  obtain ⟨px, hpx, hx1, hx2⟩ := hx
  obtain ⟨py, hpy, hy1, hy2⟩ := hy
  obtain ⟨a1, a2, a3⟩ := foldl_min_spec P.x pl.polygons.flatten o.fmax
  obtain ⟨b1, b2, b3⟩ := foldl_min_spec P.y pl.polygons.flatten o.fmax
  obtain ⟨c1, c2, c3⟩ := foldl_max_spec P.x pl.polygons.flatten o.fmin
  obtain ⟨d1, d2, d3⟩ := foldl_max_spec P.y pl.polygons.flatten o.fmin
  rw [← hg.xmin] at a1 a2 a3
  rw [← hg.ymin] at b1 b2 b3
  rw [← hg.xmax] at c1 c2 c3
  rw [← hg.ymax] at d1 d2 d3
  have hxx : pl.xmin ≤ pl.xmax := (a1 px hpx).trans (c1 px hpx)
  have hyy : pl.ymin ≤ pl.ymax := (b1 py hpy).trans (d1 py hpy)
  have e : pl.bbox = ⟨⟨pl.xmin, pl.ymin⟩, ⟨pl.xmax, pl.ymax⟩⟩ := by
    unfold Plot.bbox Box.mk'
    simp only [pmin_real, pmax_real, min_eq_left hxx, min_eq_left hyy, max_eq_right hxx, max_eq_right hyy]
  rw [e]
  refine ⟨fun p hp => ⟨a1 p hp, c1 p hp, b1 p hp, d1 p hp⟩, ?_, ?_, ?_, ?_⟩
  · rcases a3 with a3 | ⟨p, hp, a3⟩
    · exact ⟨px, hpx, le_antisymm (by simpa [a3] using hx2) (a1 px hpx)⟩
    · exact ⟨p, hp, a3⟩
  · rcases c3 with c3 | ⟨p, hp, c3⟩
    · exact ⟨px, hpx, le_antisymm (c1 px hpx) (by simpa [c3] using hx1)⟩
    · exact ⟨p, hp, c3⟩
  · rcases b3 with b3 | ⟨p, hp, b3⟩
    · exact ⟨py, hpy, le_antisymm (by simpa [b3] using hy2) (b1 py hpy)⟩
    · exact ⟨p, hp, b3⟩
  · rcases d3 with d3 | ⟨p, hp, d3⟩
    · exact ⟨py, hpy, le_antisymm (d1 py hpy) (by simpa [d3] using hy1)⟩
    · exact ⟨p, hp, d3⟩

/-- **C152 (refuted): the bounding box.**  `sys.float_info.min` is the smallest positive number: when all tiles that are kept lie left of the page's origin, the box reaches to the right of every one of them. -/
theorem C152_bbox_refuted (o : PlotOpts ℝ) (calls : List (Call ℝ)) (pl : Plot ℝ) (h : plotCalls o calls = .ok pl) (hne : pl.polygons.flatten ≠ [])
    (hx : ∀ p ∈ pl.polygons.flatten, p.x < o.fmin) : ¬ IsBounds pl.bbox pl.polygons.flatten := by
  have hg := plotCalls_grown calls (Plot.empty o) pl h ⟨rfl, rfl, rfl, rfl⟩
  obtain ⟨c1, c2, c3⟩ := foldl_max_spec P.x pl.polygons.flatten o.fmin
  rw [← hg.xmax] at c1 c2 c3
  rintro ⟨-, -, ⟨p, hp, e⟩, -, -⟩
  have h1 : pl.xmax ≤ pl.bbox.p2.x := by
    unfold Plot.bbox Box.mk'
    simp only [pmax_real]
    exact le_max_right _ _
  have h2 := hx p hp
  rw [e] at h2
  exact absurd (c2.trans h1) (not_le.2 h2)

/-- Page for the examples: a box from (0, 0) to (10, 10), everything moved by (5, 5). -/
def pageZ : PlotOpts ℚ := ⟨1/1000, 1000000, 1/1000000, .box ⟨⟨0, 0⟩, ⟨10, 10⟩⟩, ⟨1, 0, 5, 0, 1, 5⟩, none⟩

/-- What is plotted in the next example. -/
def twoSquares : List (Call ℚ) :=
  [.polygon [⟨0, 0⟩, ⟨1, 0⟩, ⟨1, 1⟩, ⟨0, 1⟩] (1/2), .polygon [⟨4, 0⟩, ⟨6, 0⟩, ⟨6, 1⟩, ⟨4, 1⟩] (1/4), .segment ⟨0, 0⟩ ⟨1, 1⟩]

/-- Non-vacuity: of two squares one lies across the edge of the box and is left out; the other is kept, with its colour; the segment is kept. -/
example : (plotCalls pageZ twoSquares).map (fun pl => (pl.polygons, pl.polygonColors)) = .ok ([[⟨5, 5⟩, ⟨6, 5⟩, ⟨6, 6⟩, ⟨5, 6⟩]], [1/2]) ∧
    (plotCalls pageZ twoSquares).map (fun pl => (pl.segments, pl.colorCount)) = .ok ([⟨⟨5, 5⟩, ⟨6, 6⟩⟩], [(1/2, 1)]) ∧
    (plotCalls pageZ twoSquares).map (fun pl => pl.bbox) = .ok ⟨⟨5, 5⟩, ⟨6, 6⟩⟩ := by decide +kernel

/-- Non-vacuity of `C152_boxes_refuted`, and a run in which the box has a colour of its own. -/
example : (plotCalls pageZ [.polygon [⟨0, 0⟩, ⟨1, 0⟩, ⟨1, 1⟩, ⟨0, 1⟩] (1/2), .segpoly [⟨0, 0⟩, ⟨1, 0⟩, ⟨1, 1⟩] (1/2)]).map (fun pl => pl.segpolys) = .error .keyError ∧
    (plotCalls pageZ [.polygon [⟨0, 0⟩, ⟨1, 0⟩, ⟨1, 1⟩, ⟨0, 1⟩] (1/2), .segpoly [⟨0, 0⟩, ⟨1, 0⟩, ⟨1, 1⟩] (1/3)]).map (fun pl => pl.segpolys) = .ok [[⟨5, 5⟩, ⟨6, 5⟩, ⟨6, 6⟩]] := by
  decide +kernel

end Verif.Ext
