import Verif.Ext.PolyExt
import Verif.Graph.Props5
import Mathlib.Logic.Relation

/-!
# C163: paths, offsets and hulls of a drawing
-/

set_option linter.unusedSectionVars false

namespace Verif.Ext
open Verif Graph

variable {V : Type} [DecidableEq V]

/-! ## Specification -/

/-- Specification: where a segment starts and ends. -/
def SegV.ends : SegV V → V × V
  | .line a b => (a, b)
  | .arc a b => (a, b)
  | .curve a _ _ b => (a, b)

/-- Specification: a segment of the drawing joins two different points. -/
def JoinedIn (paths : List (List (SegV V))) (a b : V) : Prop := a ≠ b ∧ ∃ s ∈ paths.flatten, s.ends = (a, b) ∨ s.ends = (b, a)

/-- Specification: the drawing consists of lines and arcs. -/
def NoCurves (paths : List (List (SegV V))) : Prop := ∀ s ∈ paths.flatten, ∀ a c d b, s ≠ .curve a c d b

/-- Specification: every point where a segment ends is joined to two other points at least. -/
def NoLooseEnds (paths : List (List (SegV V))) : Prop := ∀ a b, JoinedIn paths a b → ∃ c, c ≠ b ∧ JoinedIn paths a c

/-- Specification: a polygon closed by repeating its first vertex, if it is not closed yet. -/
def closedUp : List V → List V
  | [] => []
  | a :: r => if (a :: r).getLast? = some a then a :: r else a :: r ++ [a]

/-- Specification: a polyline, drawn as it is. -/
def asIs (p : List V) : PolyDrawn V := ⟨p, false⟩

/-! ## The graph of the drawing -/

theorem addSegments_run (env : GEnv V) : ∀ (l : List (SegV V)) (g : G V), g.WF → g.bottom ≠ .none →
    addSegments env g l = .ok (g.run env (l.map fun s => Op.add s.pair.1 s.pair.2)) := by
  intro l
  induction l with
  | nil => intro g _ _; rfl
  | cons s l ih =>
    intro g hw hb
    obtain ⟨g', e, h1, h2, -⟩ := addEdge_ok env hw hb s.pair.1 s.pair.2
    unfold addSegments
    rw [e]
    dsimp only
    rw [ih g' h1 h2]
    simp only [List.map_cons, G.run, List.foldl_cons, G.step, e]

theorem specRun_adds (l : List (SegV V)) : ∀ (E : V → V → Prop) (x y : V),
    specRun E (l.map fun s => Op.add s.pair.1 s.pair.2) x y ↔ E x y ∨ (x ≠ y ∧ ∃ s ∈ l, s.pair = (x, y) ∨ s.pair = (y, x)) := by
  induction l with
  | nil => intro E x y; simp [specRun]
  | cons s l ih =>
    intro E x y
    have : specRun E ((s :: l).map fun s => Op.add s.pair.1 s.pair.2) = specRun (specStep E (Op.add s.pair.1 s.pair.2)) (l.map fun s => Op.add s.pair.1 s.pair.2) := rfl
    rw [this, ih]
    simp only [specStep, IsEdge, List.exists_mem_cons_iff]
    have key : (s.pair.1 ≠ s.pair.2 ∧ ((x = s.pair.1 ∧ y = s.pair.2) ∨ (x = s.pair.2 ∧ y = s.pair.1))) ↔ (x ≠ y ∧ (s.pair = (x, y) ∨ s.pair = (y, x))) := by
      generalize s.pair = p
      obtain ⟨a, b⟩ := p
      simp only [Prod.mk.injEq]
      constructor
      · rintro ⟨h, ⟨rfl, rfl⟩ | ⟨rfl, rfl⟩⟩
        · exact ⟨h, Or.inl ⟨rfl, rfl⟩⟩
        · exact ⟨fun e => h e.symm, Or.inr ⟨rfl, rfl⟩⟩
      · rintro ⟨h, ⟨rfl, rfl⟩ | ⟨rfl, rfl⟩⟩
        · exact ⟨h, Or.inl ⟨rfl, rfl⟩⟩
        · exact ⟨fun e => h e.symm, Or.inr ⟨rfl, rfl⟩⟩
    rw [key]
    generalize (∃ s ∈ l, s.pair = (x, y) ∨ s.pair = (y, x)) = P
    generalize (s.pair = (x, y) ∨ s.pair = (y, x)) = Q
    tauto

theorem pair_ends {paths : List (List (SegV V))} (hs : NoCurves paths) {s : SegV V} (h : s ∈ paths.flatten) : s.pair = s.ends := by
  cases s with
  | line a b => rfl
  | arc a b => rfl
  | curve a c d b => exact absurd rfl (hs _ h a c d b)

/-- The graph of a drawing of lines and arcs has exactly the edges of the drawing. -/
theorem drawingGraph_spec (env : GEnv V) {paths : List (List (SegV V))} (hs : NoCurves paths) :
    ∃ g, drawingGraph env paths = .ok g ∧ g.WF ∧ (∀ x y, g.HasEdge x y ↔ JoinedIn paths x y) ∧
      (∀ y : V → ℚ, (∀ a b, env.yLt a b = decide (y a < y b)) → g.keys ≠ [] → ∃ v, g.bottom = .node v ∧ IsBottom g y v) := by
  obtain ⟨h1, h2, -⟩ := C65_history env (paths.flatten.map fun s => Op.add s.pair.1 s.pair.2)
  refine ⟨_, addSegments_run env paths.flatten G.empty empty_wf (by simp [G.empty]), h1, ?_, ?_⟩
  · intro x y
    rw [h2, specRun_adds]
    unfold JoinedIn
    simp only [false_or]
    refine and_congr_right fun _ => ⟨?_, ?_⟩
    · rintro ⟨s, m, e⟩; exact ⟨s, m, by rwa [← pair_ends hs m]⟩
    · rintro ⟨s, m, e⟩; exact ⟨s, m, by rwa [pair_ends hs m]⟩
  · intro y hy hk
    refine C141_bottom_partial env y hy _ ?_ hk
    intro op hop
    obtain ⟨s, -, rfl⟩ := List.mem_map.1 hop
    trivial

theorem edges_ne {g : G V} {a b : V} (h : g.HasEdge a b) : g.edges ≠ [] := by
  rintro e
  unfold G.HasEdge at h
  rw [e] at h
  simp at h

theorem drawPolygon_asIs {p : List V} (h : p ≠ []) : drawPolygon false false p = [asIs p] := by
  obtain ⟨a, r, rfl⟩ := List.exists_cons_of_ne_nil h
  simp [drawPolygon, asIs]

theorem drawPolygon_closed (z : Bool) {p : List V} (h : p ≠ []) : drawPolygon true z p = [⟨closedUp p, z⟩] := by
  obtain ⟨a, r, rfl⟩ := List.exists_cons_of_ne_nil h
  simp only [drawPolygon, closedUp, true_and, List.getLastD_cons, List.getLast?_cons, Option.some.injEq]
  by_cases e : r.getLast?.getD a = a
  · have e' : r.getLastD a = a := by rw [List.getLastD_eq_getLast?]; exact e
    rw [if_pos e, if_neg (fun k => k e'.symm)]
  · have e' : r.getLastD a ≠ a := by rw [List.getLastD_eq_getLast?]; exact e
    rw [if_neg e, if_pos (fun k => e' k.symm)]

/-- A polygon that is drawn closed ends where it starts. -/
theorem closedUp_spec (p : List V) (h : p ≠ []) : (closedUp p).head? = p.head? ∧ (closedUp p).getLast? = p.head? ∧ (closedUp p = p ∨ closedUp p = p ++ p.take 1) := by
  obtain ⟨a, r, rfl⟩ := List.exists_cons_of_ne_nil h
  unfold closedUp
  dsimp only
  by_cases e : (a :: r).getLast? = some a
  · rw [if_pos e]; exact ⟨rfl, e, Or.inl rfl⟩
  · rw [if_neg e]; exact ⟨by simp, List.getLast?_concat, Or.inr (by simp)⟩

theorem pathEdges_length : ∀ p : List V, (pathEdges p).length = p.length - 1
  | [] => rfl
  | [_] => rfl
  | _ :: b :: r => by
    have := pathEdges_length (b :: r)
    simp only [pathEdges, List.length_cons] at *
    omega

/-- **C163 (paths).**  For every drawing of lines and arcs, every strategy, every outcome of the random choices and all iteration orders: the segments of the drawing are joined to paths, such that
every two points that are joined are joined exactly once; the paths with at least the number of segments asked for are drawn, in one layer, longest first. -/
theorem C163_paths (T : PolyTools V) (o : PolyOpts) {paths : List (List (SegV V))} (hs : NoCurves paths) (hne : ∃ a b, JoinedIn paths a b) :
    ∃ (g : G V) (ps : List (List V)), drawingGraph T.env paths = .ok g ∧
      drawPolypaths T o g = some (.ok [⟨"q_polypath", (ps.filter fun p => o.minLength ≤ (pathEdges p).length).map asIs⟩]) ∧
      (ps.flatMap pathEdges).Nodup ∧ (∀ a b, s(a, b) ∈ ps.flatMap pathEdges ↔ JoinedIn paths a b) ∧
      (∀ p ∈ ps, 2 ≤ p.length) ∧ ps.Pairwise fun p q => q.length ≤ p.length := by
  obtain ⟨g, e, hw, hE, -⟩ := drawingGraph_spec T.env hs
  obtain ⟨a, b, hab⟩ := hne
  obtain ⟨ps, p1, p2, p3, p4⟩ := C67_build_paths_partial T.env hw o.strategy T.rnd none (edges_ne ((hE a b).2 hab)) (by simp)
  refine ⟨g, ps, e, ?_, ?_, ?_, fun p hp => (p3 p hp).2, p4⟩
  · unfold drawPolypaths
    rw [p1]
    simp only [Option.map_some, Except.map, Option.some.injEq, Except.ok.injEq, List.cons.injEq, and_true, PolyLayer.mk.injEq, true_and]
    clear p1 p2 p4
    induction ps with
    | nil => rfl
    | cons p ps ih =>
      have h2 := (p3 p (by simp)).2
      have hc : (o.minLength < (p.length : Int)) ↔ o.minLength ≤ ((pathEdges p).length : Int) := by
        rw [pathEdges_length]; omega
      have ih := ih (fun q hq => p3 q (by simp [hq]))
      by_cases h : o.minLength < (p.length : Int)
      · rw [List.filter_cons_of_pos (by simpa using h), List.filter_cons_of_pos (by simpa using hc.1 h), List.flatMap_cons, List.map_cons, ih,
          drawPolygon_asIs (by rintro rfl; simp at h2)]
        rfl
      · rw [List.filter_cons_of_neg (by simpa using h), List.filter_cons_of_neg (by rw [decide_eq_true_eq, ← hc]; exact h), ih]
  · exact p2.nodup_iff.2 (edges_nodup hw)
  · intro x y
    rw [p2.mem_iff, ← hasEdge_und, hE]

theorem longestLayers_spec (m : Int) : ∀ (ps : List (List V)) (i : Nat), (∀ p ∈ ps, p ≠ []) →
    longestLayers m i ps = (if m < i then ps else ps.take (m - i).toNat).mapIdx fun k p => ⟨"q_polypath_long_" ++ toString (i + k) ++ "_", [asIs p]⟩ := by
  intro ps
  induction ps with
  | nil => intro i _; split <;> simp [longestLayers]
  | cons p ps ih =>
    intro i h
    unfold longestLayers
    have hp := drawPolygon_asIs (h p (by simp))
    by_cases e : (i : Int) = m
    · rw [if_pos e, if_neg (by omega), show (m - i).toNat = 0 by omega]
      rfl
    · rw [if_neg e, hp, ih (i + 1) (fun q hq => h q (by simp [hq]))]
      by_cases hm : m < i
      · rw [if_pos hm, if_pos (by omega), List.mapIdx_cons]
        simp only [Nat.add_zero, List.cons.injEq, true_and]
        congr 1
        funext k p
        rw [show i + 1 + k = i + (k + 1) by omega]
      · rw [if_neg hm, if_neg (by omega), show (m - i).toNat = (m - ((i + 1 : Nat) : Int)).toNat + 1 by omega, List.take_succ_cons, List.mapIdx_cons]
        simp only [Nat.add_zero, List.cons.injEq, true_and]
        congr 1
        funext k p
        rw [show i + 1 + k = i + (k + 1) by omega]

/-- **C163 (longest paths).**  The longest paths, one through each segment, apart from those left out as too similar to the one before, are drawn longest first, each in a layer of its own: as many as are
asked for, all of them if the number is negative.  Each goes along segments of the drawing and uses none twice; no path through any segment that was tried is longer than the first one drawn. -/
theorem C163_longest (T : PolyTools V) (hT : ∀ l, (T.edgeOrder l).Perm l) (o : PolyOpts) {paths : List (List (SegV V))} (hs : NoCurves paths) (hne : ∃ a b, JoinedIn paths a b) :
    ∃ (g : G V) (all ps : List (List V)), drawingGraph T.env paths = .ok g ∧
      drawLongest T o g = some (.ok ((if o.maxPaths < 0 then ps else ps.take o.maxPaths.toNat).mapIdx fun k p => ⟨"q_polypath_long_" ++ toString k ++ "_", [asIs p]⟩)) ∧
      (∀ p ∈ ps, p ∈ all) ∧ (∀ p ∈ all, 2 ≤ p.length ∧ p.IsChain (JoinedIn paths) ∧ (pathEdges p).Nodup) ∧
      (∀ a b, JoinedIn paths a b → ∃ p ∈ all, s(a, b) ∈ pathEdges p) ∧
      ps ≠ [] ∧ (ps.Pairwise fun p q => q.length ≤ p.length) ∧ ∀ p ∈ all, ∀ q ∈ ps.head?, p.length ≤ q.length := by
  obtain ⟨g, e, hw, hE, -⟩ := drawingGraph_spec T.env hs
  obtain ⟨a, b, hab⟩ := hne
  have hEq : g.HasEdge = JoinedIn paths := by funext x y; exact propext (hE x y)
  obtain ⟨all, ps, p1, p2, p3, p4, p5, p6⟩ := C142_longest_partial T.env hw o.strategy T.rnd2 (T.edgeOrder g.edges) (hT _) (edges_ne ((hE a b).2 hab))
  refine ⟨g, all, ps, e, ?_, fun p hp => (p4 p hp).1, ?_, ?_, p3, p5, p6⟩
  · unfold drawLongest
    rw [p2]
    simp only [Option.map_some, Except.map]
    rw [longestLayers_spec _ _ _ (fun p hp h => by have := (p4 p hp).2.2.2; rw [h] at this; simp at this)]
    simp
  · intro p hp
    obtain ⟨e, h1, h2, h3, h4⟩ := forall₂_right p1 p hp
    exact ⟨h4, hEq ▸ h2, h3⟩
  · intro x y hxy
    have hx : s(x, y) ∈ g.edges.map und := (hasEdge_und g x y).1 ((hE x y).2 hxy)
    obtain ⟨f, hf, ef⟩ := List.mem_map.1 hx
    have hf' : f ∈ T.edgeOrder g.edges := (hT _).mem_iff.2 hf
    clear p2 p3 p4 p5 p6
    have key : ∀ {l : List (V × V)} {m : List (List V)}, List.Forall₂ (fun e p => und e ∈ pathEdges p ∧ IsTrail g p) l m → f ∈ l → ∃ p ∈ m, und f ∈ pathEdges p := by
      intro l m h
      induction h with
      | nil => intro h; cases h
      | @cons u v us vs hd _ ih =>
        intro h
        rcases List.mem_cons.1 h with rfl | h
        · exact ⟨v, by simp, hd.1⟩
        · obtain ⟨p, hp, k⟩ := ih h
          exact ⟨p, by simp [hp], k⟩
    obtain ⟨p, hp, k⟩ := key p1 hf'
    exact ⟨p, hp, ef ▸ k⟩

/-! ## Offsets -/

theorem offsetPolys_one (offset : List V → List (List V)) (fuel : Nat) (polys : List (List V)) :
    offsetPolys offset false (fuel + 1) polys = some (polys.flatMap offset) := by
  unfold offsetPolys
  induction polys with
  | nil => rfl
  | cons p polys ih =>
    rw [List.foldr_cons, ih]
    simp

theorem offsetPolys_rec (offset : List V → List (List V)) (rank : List V → Nat) (hr : ∀ p, ∀ q ∈ offset p, rank q < rank p) : ∀ (fuel : Nat) (polys : List (List V)),
    (∀ p ∈ polys, rank p + 1 < fuel) → 0 < fuel → ∃ r, offsetPolys offset true fuel polys = some r ∧ ∀ q, q ∈ r ↔ ∃ p ∈ polys, Relation.TransGen (fun a b => b ∈ offset a) p q := by
  intro fuel
  induction fuel with
  | zero => intro _ _ h; exact absurd h (by simp)
  | succ fuel ihf =>
    intro polys hp _
    unfold offsetPolys
    induction polys with
    | nil => exact ⟨[], rfl, by simp⟩
    | cons p polys ih =>
      obtain ⟨r, e, hr1⟩ := ih (fun q hq => hp q (by simp [hq]))
      have hsub : ∃ s, offsetPolys offset true fuel (offset p) = some s ∧ ∀ q, q ∈ s ↔ ∃ x ∈ offset p, Relation.TransGen (fun a b => b ∈ offset a) x q := by
        have hpf := hp p (by simp)
        exact ihf (offset p) (fun q hq => by have := hr p q hq; omega) (by omega)
      obtain ⟨s, e2, hs⟩ := hsub
      refine ⟨offset p ++ s ++ r, ?_, ?_⟩
      · rw [List.foldr_cons, e]
        simp [e2]
      · intro q
        simp only [List.mem_append, hs, hr1, List.exists_mem_cons_iff]
        constructor
        · rintro ((h | ⟨x, hx, h⟩) | h)
          · exact Or.inl (.single h)
          · exact Or.inl (.head hx h)
          · exact Or.inr h
        · rintro (h | h)
          · rcases Relation.TransGen.head'_iff.1 h with ⟨x, hx, h⟩
            rcases Relation.reflTransGen_iff_eq_or_transGen.1 h with rfl | h
            · exact Or.inl (Or.inl hx)
            · exact Or.inl (Or.inr ⟨x, hx, h⟩)
          · exact Or.inr h

/-- A recursion that never runs out of polygons does not end. -/
theorem offsetPolys_endless (offset : List V → List (List V)) (S : List V → Prop) (hS : ∀ p, S p → ∃ q ∈ offset p, S q) : ∀ (fuel : Nat) (polys : List (List V)),
    (∃ p ∈ polys, S p) → offsetPolys offset true fuel polys = none := by
  intro fuel
  induction fuel with
  | zero => intro _ _; rfl
  | succ fuel ihf =>
    rintro polys ⟨p, hp, h⟩
    unfold offsetPolys
    induction polys with
    | nil => cases hp
    | cons x polys ih =>
      rw [List.foldr_cons]
      rcases List.mem_cons.1 hp with rfl | hp
      · simp only [if_true, ihf _ (hS p h), Option.bind_none]
      · rw [ih hp]
        simp only [if_true, Option.map_none]
        cases offsetPolys offset true fuel (offset x) <;> rfl

theorem noDeadEnds_of {g : G V} (hw : g.WF) {paths : List (List (SegV V))} (hE : ∀ x y, g.HasEdge x y ↔ JoinedIn paths x y) (hl : NoLooseEnds paths) : NoDeadEnds g := by
  intro v hv
  obtain ⟨w, hw'⟩ := List.exists_mem_of_ne_nil _ (hw.noIsolated v hv)
  have h1 := (hw.adjacent v w).1 ⟨hv, hw'⟩
  obtain ⟨c, hc, h2⟩ := hl v w ((hE v w).1 h1)
  have h3 := ((hw.adjacent v c).2 ((hE v c).2 h2)).2
  have : [w, c].Subperm (g.adj v) := by
    apply List.Nodup.subperm
    · simp; exact fun e => hc e.symm
    · intro x hx
      simp only [List.mem_cons, List.not_mem_nil, or_false] at hx
      rcases hx with rfl | rfl
      · exact hw'
      · exact h3
  exact this.length_le

/-- **C163 (offset polygons).**  In a drawing of lines and arcs without loose ends the cells of the drawing (the closed walks that take the leftmost way and are not clockwise, see C140) are offset; what is drawn,
closed, in one layer, are the offsets of the cells, and with recursion the offsets of the offsets and so on as well — provided that they get smaller, so that there is an end to it. -/
theorem C163_offsets_partial (T : PolyTools V) (hT : ∀ l, (T.nodeOrder l).Perm l) (o : PolyOpts) {paths : List (List (SegV V))} (hs : NoCurves paths) (hl : NoLooseEnds paths)
    (rank : List V → Nat) (hr : o.recurs = true → ∀ p, ∀ q ∈ T.offset p, rank q < rank p) (hne : ∀ p, ∀ q ∈ T.offset p, q ≠ []) :
    ∃ (g : G V) (walks : List (List V)), drawingGraph T.env paths = .ok g ∧ (∀ w ∈ walks, IsFaceWalk (g.query T.env) w) ∧ (walks.flatMap steps).Nodup ∧
      (∀ a b, (a, b) ∈ walks.flatMap steps ↔ JoinedIn paths a b) ∧
      ∀ fuel, 0 < fuel → (∀ w ∈ walks, rank w + 1 < fuel) →
        ∃ ps : List (List V), drawOffsets T o fuel g = some (.ok [⟨"q_cell_polygons", ps.map fun p => ⟨closedUp p, true⟩⟩]) ∧
          (o.recurs = false → ps = (walks.filter fun w => !(T.clockwise w)).flatMap T.offset) ∧
          (o.recurs = true → ∀ q, q ∈ ps ↔ ∃ w ∈ walks, T.clockwise w = false ∧ Relation.TransGen (fun a b => b ∈ T.offset a) w q) := by
  obtain ⟨g, e, hw, hE, -⟩ := drawingGraph_spec T.env hs
  have hd := noDeadEnds_of hw hE hl
  obtain ⟨walks, w1, w2, w3⟩ := C140_faces_partial T.env hw hd T.clockwise T.nodeOrder hT
  refine ⟨g, walks, e, w2, ?_, ?_, ?_⟩
  · rw [w3.nodup_iff]
    exact sidesOf_nodup hw
  · intro a b
    rw [w3.mem_iff, ← hE]
    exact mem_sidesOf g a b
  · intro fuel hf hrank
    have key : ∀ ps : List (List V), (∀ p ∈ ps, p ≠ []) → ps.flatMap (drawPolygon true true) = ps.map fun p => ⟨closedUp p, true⟩ := by
      intro ps
      induction ps with
      | nil => intro _; rfl
      | cons p ps ih =>
        intro h
        rw [List.flatMap_cons, drawPolygon_closed true (h p (by simp)), ih (fun q hq => h q (by simp [hq]))]
        rfl
    unfold drawOffsets
    rw [w1]
    dsimp only
    cases hrec : o.recurs with
    | false =>
      obtain ⟨n, rfl⟩ := Nat.exists_eq_succ_of_ne_zero (by omega : fuel ≠ 0)
      refine ⟨_, ?_, fun _ => rfl, by simp⟩
      rw [offsetPolys_one, Option.map_some, key]
      intro p hp
      obtain ⟨q, -, hq⟩ := List.mem_flatMap.1 hp
      exact hne q p hq
    | true =>
      obtain ⟨r, e1, h1⟩ := offsetPolys_rec T.offset rank (hr hrec) fuel (walks.filter fun w => !(T.clockwise w)) (fun p hp => hrank p (List.mem_of_mem_filter hp)) hf
      refine ⟨r, ?_, by simp, ?_⟩
      · rw [e1, Option.map_some, key]
        intro p hp
        obtain ⟨q, -, hq⟩ := (h1 p).1 hp
        obtain ⟨x, -, hx⟩ := Relation.TransGen.tail'_iff.1 hq
        exact hne x p hx
      · intro _ q
        rw [h1]
        simp only [List.mem_filter, Bool.not_eq_true', and_assoc]

/-- **C163, refuted (recursion without end).**  If every offset polygon has an offset again — as with a positive offset, or with the default 0 — the recursion never ends (Python raises `RuntimeError` at its
recursion limit). -/
theorem C163_endless_refuted (T : PolyTools V) (o : PolyOpts) (hrec : o.recurs = true) (S : List V → Prop) (hS : ∀ p, S p → ∃ q ∈ T.offset p, S q) {g : G V} {faces : List (List V)}
    (hf : facePolygons T.env g T.clockwise T.nodeOrder = some (.ok faces)) (h : ∃ p ∈ faces, S p) (fuel : Nat) : drawOffsets T o fuel g = none := by
  unfold drawOffsets
  rw [hf]
  dsimp only
  rw [hrec, offsetPolys_endless T.offset S hS fuel faces h]
  rfl

/-! ## Hulls -/

theorem query_idle (env : GEnv V) (g : G V) : (g.query env).query env = g.query env := by
  have h : (g.query env).modified = false := by
    unfold G.query
    split <;> rfl
  generalize g.query env = g' at h
  unfold G.query
  rw [h]
  simp only [Bool.false_eq_true, if_false]
  cases g'
  simp only at h
  subst h
  rfl

theorem boundary_query (env : GEnv V) (g : G V) : boundaryPolygon env (g.query env) = boundaryPolygon env g := by
  unfold boundaryPolygon
  rw [query_idle]

/-- **C163 (hulls).**  In a drawing of lines and arcs without loose ends: the outer hull that is drawn goes along segments of the drawing from a lowest point on, taking the leftmost way at every point,
until it is back (or has as many segments as the drawing has points); with inner hulls, a second layer holds the polygons of C159, each strictly inside the outer hull and the inner ones drawn
before it, unless there are none. -/
theorem C163_hulls_partial (T : PolyTools V) (hT : ∀ k n l, (T.iters k n l).Perm l) (y : V → ℚ) (hy : ∀ a b, T.env.yLt a b = decide (y a < y b)) (o : PolyOpts)
    {paths : List (List (SegV V))} (hs : NoCurves paths) (hl : NoLooseEnds paths) (hne : ∃ a b, JoinedIn paths a b) :
    ∃ g : G V, drawingGraph T.env paths = .ok g ∧ ∀ fuel, g.keys.length < fuel → ∃ (v : V) (rest : List V) (inner : List (List V)),
      (∀ w x, JoinedIn paths w x → y v ≤ y w) ∧
      (v :: rest).IsChain (JoinedIn paths) ∧
      (∀ l₁ a b c l₂, v :: rest = l₁ ++ a :: b :: c :: l₂ → JustBefore ((g.query T.env).adj b) a c) ∧
      ((rest.getLast? = some v ∧ v ∉ rest.dropLast) ∨ (v ∉ rest ∧ rest.length = g.keys.length)) ∧
      (∀ p ∈ inner, 3 < p.length ∧ p.IsChain (JoinedIn paths) ∧ (∀ w ∈ p, T.inside (v :: rest) w = true ∧ w ∉ v :: rest) ∧ ∀ u ∈ p.head?, ∀ w ∈ p, y u ≤ y w) ∧
      (inner.Pairwise fun p q => ∀ w ∈ q, T.inside p w = true ∧ w ∉ p) ∧
      drawBoundary T o fuel g =
        some (.ok (⟨"q_polyhull", [⟨closedUp (v :: rest), false⟩]⟩ :: if o.innerDraw ∧ inner ≠ [] then [⟨"q_polyhull", inner.map fun p => ⟨closedUp p, false⟩⟩] else [])) := by
  obtain ⟨g, e, hw, hE, hbot⟩ := drawingGraph_spec T.env hs
  have hd := noDeadEnds_of hw hE hl
  have hEq : g.HasEdge = JoinedIn paths := by funext x y; exact propext (hE x y)
  obtain ⟨a, b, hab⟩ := hne
  have hk : g.keys ≠ [] := by
    have := ((hw.adjacent a b).2 ((hE a b).2 hab)).1
    intro h; rw [h] at this; cases this
  obtain ⟨v, hv, hvk, hvb⟩ := hbot y hy hk
  obtain ⟨rest, r1, -, r2, r3, r4⟩ := C141_boundary_partial T.env hw hd hv hvk
  obtain ⟨q1, q2, -, -⟩ := query_spec T.env g
  have hwq := query_wf T.env hw
  have hEq' : (g.query T.env).HasEdge = JoinedIn paths := by
    rw [← hEq]; funext a b; unfold G.HasEdge; rw [q2]
  refine ⟨g, e, fun fuel hf => ?_⟩
  obtain ⟨inner, p1, p2, p3⟩ := C159_nested T.env y hy hwq T.iters hT T.inside (v :: rest) (by simp) fuel (by rw [q1]; omega)
  refine ⟨v, rest, inner, ?_, hEq ▸ r2, r3, ?_, ?_, p3, ?_⟩
  · intro w x hx
    exact hvb w ((hw.adjacent w x).2 ((hE w x).2 hx)).1
  · rcases r4 with ⟨h1, h2, -⟩ | h
    · exact Or.inl ⟨h1, h2⟩
    · exact Or.inr h
  · intro p hp
    obtain ⟨h1, h2, h3, h4⟩ := p2 p hp
    exact ⟨h1, hEq' ▸ h2, fun w hw => (h3 w hw).2, h4⟩
  · unfold drawBoundary
    rw [r1]
    dsimp only
    have h1 : drawHulls [v :: rest] = ⟨"q_polyhull", [⟨closedUp (v :: rest), false⟩]⟩ := by
      unfold drawHulls
      rw [List.flatMap_cons, List.flatMap_nil, List.append_nil, drawPolygon_closed false (by simp)]
    have h2 : drawHulls inner = ⟨"q_polyhull", inner.map fun p => ⟨closedUp p, false⟩⟩ := by
      unfold drawHulls
      congr 1
      clear p1 p3
      induction inner with
      | nil => rfl
      | cons p inner ih =>
        have hp := (p2 p (by simp)).1
        rw [List.flatMap_cons, drawPolygon_closed false (by rintro rfl; simp at hp), ih (fun q hq => p2 q (by simp [hq]))]
        rfl
    rw [p1]
    cases o.innerDraw with
    | false => simp [h1]
    | true =>
      cases inner with
      | nil => simp [h1]
      | cons p inner => simp [h1, h2]

/-! ## The whole run -/

theorem drawnAfter_ok {b : Option (Except PyErr (List (PolyLayer V)))} (l l' : List (PolyLayer V)) (h : b = some (.ok l')) :
    drawnAfter (some (.ok l)) b = some (.ok (l ++ l')) := by
  rw [h]; rfl

theorem ifAsked_ok {b : Bool} {d : Option (Except PyErr (List (PolyLayer V)))} (h : b = true → ∃ l, d = some (.ok l)) :
    ∃ l, (b = true → d = some (.ok l)) ∧ (b = false → l = []) ∧ ifAsked b d = some (.ok l) := by
  cases b with
  | false => exact ⟨[], by simp, by simp, rfl⟩
  | true =>
    obtain ⟨l, hl⟩ := h rfl
    exact ⟨l, fun _ => hl, by simp, by rw [hl]; rfl⟩

/-- **C163 (the run).**  For every drawing of lines and arcs with two different points at least, and without loose ends if offsets or hulls are asked for (offsets of offsets must get smaller), the run ends
without an exception; it draws exactly the layers asked for: the paths, the longest paths, the offset polygons, the convex hull of all points that are joined and the hulls, in this order, each as it is
drawn alone. -/
theorem C163_run_partial (T : PolyTools V) (h1 : ∀ l, (T.edgeOrder l).Perm l) (h2 : ∀ l, (T.nodeOrder l).Perm l) (h3 : ∀ k n l, (T.iters k n l).Perm l)
    (y : V → ℚ) (hy : ∀ a b, T.env.yLt a b = decide (y a < y b)) (o : PolyOpts) {paths : List (List (SegV V))} (hs : NoCurves paths) (hne : ∃ a b, JoinedIn paths a b)
    (hl : o.offsetDraw = true ∨ o.hullDraw = true → NoLooseEnds paths)
    (rank : List V → Nat) (hr : o.recurs = true → ∀ p, ∀ q ∈ T.offset p, rank q < rank p) (hq : ∀ p, ∀ q ∈ T.offset p, q ≠ []) :
    ∃ (g : G V) (least : Nat), drawingGraph T.env paths = .ok g ∧ ∀ fuel, least ≤ fuel → ∃ ps ls os cs hs : List (PolyLayer V),
      polyRun T o fuel paths = some (.ok (ps ++ (ls ++ (os ++ (cs ++ hs))))) ∧
      (o.pathDraw = true → drawPolypaths T o g = some (.ok ps)) ∧ (o.pathDraw = false → ps = []) ∧
      (o.longest = true → drawLongest T o g = some (.ok ls)) ∧ (o.longest = false → ls = []) ∧
      (o.offsetDraw = true → drawOffsets T o fuel g = some (.ok os)) ∧ (o.offsetDraw = false → os = []) ∧
      (o.convexDraw = true → ∃ pts, (∀ p, p ∈ pts ↔ ∃ q, JoinedIn paths p q) ∧ pts.Nodup ∧ cs = [⟨"q_convex_hull", drawPolygon true false (T.hull pts)⟩]) ∧ (o.convexDraw = false → cs = []) ∧
      (o.hullDraw = true → drawBoundary T o fuel g = some (.ok hs)) ∧ (o.hullDraw = false → hs = []) := by
  obtain ⟨g, e, hw, hE, -⟩ := drawingGraph_spec T.env hs
  have huniq : ∀ {g' : G V}, drawingGraph T.env paths = .ok g' → g' = g := by
    intro g' h; rw [e] at h; cases h; rfl
  obtain ⟨q1, q2, -, -⟩ := query_spec T.env g
  have hoff : o.offsetDraw = true → ∃ n, ∀ fuel, n ≤ fuel → ∃ l, drawOffsets T o fuel g = some (.ok l) := by
    intro h
    obtain ⟨g', walks, e', -, -, -, hw'⟩ := C163_offsets_partial T h2 o hs (hl (Or.inl h)) rank hr hq
    cases huniq e'
    refine ⟨(walks.map rank).sum + 2, fun fuel hf => ?_⟩
    obtain ⟨ps, k, -, -⟩ := hw' fuel (by omega) (fun w hw => by
      have := List.single_le_sum (l := walks.map rank) (fun _ _ => Nat.zero_le _) (rank w) (List.mem_map_of_mem hw)
      omega)
    exact ⟨_, k⟩
  have hoff' : ∃ n, ∀ fuel, n ≤ fuel → o.offsetDraw = true → ∃ l, drawOffsets T o fuel g = some (.ok l) := by
    by_cases h : o.offsetDraw = true
    · obtain ⟨n, hn⟩ := hoff h
      exact ⟨n, fun fuel hf _ => hn fuel hf⟩
    · exact ⟨0, fun _ _ k => absurd k h⟩
  obtain ⟨n, hn⟩ := hoff'
  refine ⟨g, max n (g.keys.length + 1), e, fun fuel hf => ?_⟩
  have hbd : o.hullDraw = true → ∃ l, drawBoundary T o fuel g = some (.ok l) := by
    intro h
    obtain ⟨g', e', hh⟩ := C163_hulls_partial T h3 y hy o hs (hl (Or.inr h)) hne
    cases huniq e'
    obtain ⟨v, rest, inner, -, -, -, -, -, -, k⟩ := hh fuel (by omega)
    exact ⟨_, k⟩
  obtain ⟨ps, a1, a2, a3⟩ := ifAsked_ok (b := o.pathDraw) (d := drawPolypaths T o g) (fun _ => by
    obtain ⟨g', ps, e', k, -⟩ := C163_paths T o hs hne
    cases huniq e'
    exact ⟨_, k⟩)
  obtain ⟨ls, b1, b2, b3⟩ := ifAsked_ok (b := o.longest) (d := drawLongest T o g) (fun _ => by
    obtain ⟨g', all, ps, e', k, -⟩ := C163_longest T h1 o hs hne
    cases huniq e'
    exact ⟨_, k⟩)
  obtain ⟨os, c1, c2, c3⟩ := ifAsked_ok (b := o.offsetDraw) (d := drawOffsets T o fuel g) (hn fuel (by omega))
  set g' := if o.offsetDraw then g.query T.env else g with hg'
  have hkeys : g'.keys = g.keys := by
    rw [hg']; split
    · exact q1
    · rfl
  have hbd' : drawBoundary T o fuel g' = drawBoundary T o fuel g := by
    rw [hg']; split
    · unfold drawBoundary
      rw [boundary_query, query_idle]
    · rfl
  obtain ⟨cs, d1, d2, d3⟩ := ifAsked_ok (b := o.convexDraw) (d := some (.ok (drawConvexHull T g'))) (fun _ => ⟨_, rfl⟩)
  obtain ⟨hs', f1, f2, f3⟩ := ifAsked_ok (b := o.hullDraw) (d := drawBoundary T o fuel g') (fun h => by rw [hbd']; exact hbd h)
  refine ⟨ps, ls, os, cs, hs', ?_, a1, a2, b1, b2, c1, c2, ?_, d2, ?_, f2⟩
  · unfold polyRun
    rw [e]
    dsimp only
    rw [← hg', a3, b3, c3, d3]
    exact drawnAfter_ok _ _ (drawnAfter_ok _ _ (drawnAfter_ok _ _ (drawnAfter_ok _ _ f3)))
  · intro h
    refine ⟨T.nodeOrder g.keys, ?_, (h2 _).nodup_iff.2 hw.keysNodup, ?_⟩
    · intro p
      rw [(h2 _).mem_iff]
      constructor
      · intro hp
        obtain ⟨q, hq⟩ := List.exists_mem_of_ne_nil _ (hw.noIsolated p hp)
        exact ⟨q, (hE p q).1 ((hw.adjacent p q).1 ⟨hp, hq⟩)⟩
      · rintro ⟨q, hq⟩
        exact ((hw.adjacent p q).2 ((hE p q).2 hq)).1
    · have := d1 h
      simp only [Option.some.injEq, Except.ok.injEq] at this
      rw [← this]
      unfold drawConvexHull
      rw [hkeys]
  · intro h
    rw [← hbd']
    exact f1 h

/-- **C163, refuted (nothing to draw).**  If no segment of the drawing joins two different points, the default options raise `IndexError`. -/
theorem C163_points_refuted (T : PolyTools V) (o : PolyOpts) (fuel : Nat) {paths : List (List (SegV V))} (hs : NoCurves paths) (hne : ∀ a b, ¬ JoinedIn paths a b) (ho : o.pathDraw = true) :
    polyRun T o fuel paths = some (.error .indexError) := by
  obtain ⟨g, e, hw, hE, -⟩ := drawingGraph_spec T.env hs
  have : g.edges = [] := by
    rw [List.eq_nil_iff_forall_not_mem]
    rintro ⟨a, b⟩ h
    exact hne a b ((hE a b).1 (Or.inl h))
  unfold polyRun
  rw [e]
  dsimp only
  rw [ho]
  unfold ifAsked drawPolypaths
  rw [C67_refuted_empty T.env g o.strategy T.rnd this]
  rfl

/-- Tools for the examples. -/
def toolsZ : PolyTools (ℤ × ℤ) where
  env := envZ
  rnd := fun _ _ _ => 0
  rnd2 := fun _ _ _ => 0
  edgeOrder := id
  nodeOrder := id
  iters := fun _ _ l => l
  clockwise := clockwiseZ
  offset := fun _ => []
  hull := id
  inside := insideZ

/-- **C163, refuted (curves).**  A curve counts as the segment from its start to its first control point: the path drawn for a curve from `(0, 0)` to `(9, 0)` ends at `(1, 5)`. -/
theorem C163_curves_refuted : polyRun toolsZ ⟨true, false, 1, 1, .straightest, false, false, false, false, false⟩ 9 [[.curve (0, 0) (1, 5) (8, 5) (9, 0)]] =
    some (.ok [⟨"q_polypath", [⟨[(0, 0), (1, 5)], false⟩]⟩]) := by decide +kernel

/-- Two squares, one in the other. -/
def nestedDrawing : List (List (SegV (ℤ × ℤ))) := [(squareAt 0 0 20 ++ squareAt 5 5 10).map fun e => .line e.1 e.2]

/-- Non-vacuity: the whole run on two nested squares: two closed paths, the longest one, no offsets, the points of the hull, the outer and the inner hull. -/
example : polyRun toolsZ ⟨true, true, 1, 1, .straightest, true, true, false, true, true⟩ 20 nestedDrawing =
    some (.ok [⟨"q_polypath", [⟨[(0, 0), (20, 0), (20, 20), (0, 20), (0, 0)], false⟩, ⟨[(5, 5), (15, 5), (15, 15), (5, 15), (5, 5)], false⟩]⟩,
      ⟨"q_polypath_long_0_", [⟨[(0, 0), (20, 0), (20, 20), (0, 20), (0, 0)], false⟩]⟩, ⟨"q_cell_polygons", []⟩,
      ⟨"q_polyhull", [⟨rimAt 0 0 20, false⟩]⟩, ⟨"q_polyhull", [⟨rimAt 5 5 10, false⟩]⟩]) := by decide +kernel

/-- Its hypotheses hold. -/
example : NoCurves nestedDrawing ∧ NoLooseEnds nestedDrawing ∧ JoinedIn nestedDrawing (0, 0) (20, 0) := by
  refine ⟨?_, ?_, ?_⟩
  · intro s hs a c d b e
    subst e
    simp [nestedDrawing] at hs
  · have key : ∀ s ∈ nestedDrawing.flatten, ∀ e ∈ [s.ends, s.ends.swap], ∃ t ∈ nestedDrawing.flatten, ∃ f ∈ [t.ends, t.ends.swap], f.1 = e.1 ∧ f.2 ≠ e.2 ∧ f.1 ≠ f.2 := by decide +kernel
    rintro a b ⟨-, s, hs, h⟩
    obtain ⟨t, ht, f, hf, h1, h2, h3⟩ := key s hs (a, b) (by
      rcases h with h | h
      · simp [h]
      · simp [h])
    refine ⟨f.2, h2, ?_, t, ht, ?_⟩
    · dsimp only at h1; rw [← h1]; exact h3
    · dsimp only at h1
      rw [← h1]
      simp only [List.mem_cons, List.not_mem_nil, or_false] at hf
      rcases hf with rfl | rfl
      · exact Or.inl rfl
      · exact Or.inr rfl
  · exact ⟨by decide, .line (0, 0) (20, 0), by decide, Or.inl rfl⟩

end Verif.Ext
