import Verif.Ext.VoronoiRun
import Verif.Ext.Props20
import Verif.Ext.Props21
import Verif.Ext.Props25
import Verif.Voronoi.Props2

/-!
# C168: what the Voronoi extension draws
-/

set_option linter.unusedSectionVars false

namespace Verif.Ext
open Verif PyFloat PyTrig Geom Graph

/-! ## Specification -/

section
variable {K : Type} [PyTrig K] [DecidableEq K]

/-- Specification: the point is an end of a segment of the drawing. -/
def IsEndIn (paths : List (List (SegV (P K)))) (p : P K) : Prop := ∃ s ∈ paths.flatten, p = s.ends.1 ∨ p = s.ends.2

/-- Specification: the iteration orders are orders. -/
structure VoroTools.Fair (T : VoroTools K) : Prop where
  points : ∀ l, (T.pointOrder l).Perm l
  rounds : ∀ n l, (T.iter n l).Perm l
  edges : ∀ l, (T.edgeOrder l).Perm l

/-- Specification: a layer draws the line from `p` to `q`, in one direction or the other. -/
def VoroLayer.Joins (L : VoroLayer K) (p q : P K) : Prop := .line p q ∈ L.shapes ∨ .line q p ∈ L.shapes

/-- Specification: the layers asked for, in order. -/
def layerNames (o : VoroOpts) : List String :=
  ["voronoi_diagram"] ++ (if o.clip then ["voronoi_clipped", "voronoi_closed"] else []) ++ (if o.delaunay then ["delaunay_edges"] else []) ++
    if o.triangles then ["delaunay_triangles"] else []

/-! ## Points -/

theorem segPoints_ends (s : SegV (P K)) : segPoints s = [s.ends.1, s.ends.2] := by cases s <;> rfl

theorem mem_inputPoints (paths : List (List (SegV (P K)))) (p : P K) : p ∈ inputPoints paths ↔ IsEndIn paths p := by
  unfold inputPoints IsEndIn
  rw [List.mem_dedup, List.mem_flatMap]
  simp only [segPoints_ends, List.mem_cons, List.not_mem_nil, or_false]

/-- **C168**, points: without jiggling, the diagram is that of the ends of all segments of the drawing, each once. -/
theorem C168_points (T : VoroTools K) (hT : T.Fair) (paths : List (List (SegV (P K)))) :
    (diagramPoints T false paths).Nodup ∧ ∀ p, p ∈ diagramPoints T false paths ↔ IsEndIn paths p := by
  unfold diagramPoints
  rw [if_neg (by simp)]
  refine ⟨(hT.points _).nodup_iff.2 (List.nodup_dedup _), fun p => ?_⟩
  rw [(hT.points _).mem_iff, mem_inputPoints]

/-! ## Layers -/

theorem voroRun_ok {T : VoroTools K} {o : VoroOpts} {eps : K} {page : Box K} {fuel fuel2 : Nat} {shapes : List (List (List (SegV (P K))))} {layers : List (VoroLayer K)}
    (hs : shapes ≠ []) (h : voroRun T o eps page fuel fuel2 shapes = some (.ok layers)) :
    ∃ (g : G (P K)) (hull : Option (List (P K))) (s : Voronoi.State K) (segs clipped : List (Line K)) (hl : List (VoroLayer K)),
      drawingGraph T.env shapes.flatten = .ok g ∧ clippingHull T o.clip g = .ok hull ∧ Voronoi.voronoi fuel (diagramPoints T o.jiggle shapes.flatten) = some (.ok s) ∧
      clippedVoronoi eps page s.out = .ok segs ∧ clippedPoly eps segs hull = .ok clipped ∧ hullLayers T fuel2 hull clipped = some (.ok hl) ∧
      layers = lineLayer "voronoi_diagram" "voronoi" segs :: (hl ++ delaunayLayers o (clippedDelaunay eps s.made hull) s) := by
  unfold voroRun at h
  rw [if_neg hs] at h
  cases h1 : drawingGraph T.env shapes.flatten with
  | error e => rw [h1] at h; cases h
  | ok g =>
    rw [h1] at h
    dsimp only at h
    cases h2 : clippingHull T o.clip g with
    | error e => rw [h2] at h; cases h
    | ok hull =>
      rw [h2] at h
      dsimp only [diagramRun] at h
      cases h3 : Voronoi.voronoi fuel (diagramPoints T o.jiggle shapes.flatten) with
      | none => rw [h3] at h; cases h
      | some r =>
        cases r with
        | error e => rw [h3] at h; cases h
        | ok s =>
          rw [h3] at h
          dsimp only [drawVoronoi, clippedBoth] at h
          cases h4 : clippedVoronoi eps page s.out with
          | error e => rw [h4] at h; cases h
          | ok segs =>
            rw [h4] at h
            cases h5 : clippedPoly eps segs hull with
            | error e => simp only [bind, Except.bind, h5] at h; cases h
            | ok clipped =>
              simp only [bind, Except.bind, h5, pure, Except.pure] at h
              cases h6 : hullLayers T fuel2 hull clipped with
              | none => rw [h6] at h; cases h
              | some r =>
                rw [h6] at h
                cases r with
                | error e => cases h
                | ok hl =>
                  cases h
                  exact ⟨g, hull, s, segs, clipped, hl, rfl, h2, rfl, h4, h5, h6, rfl⟩

theorem hullLayers_ok {T : VoroTools K} {fuel : Nat} {hull : Option (List (P K))} {clipped : List (Line K)} {hl : List (VoroLayer K)}
    (h : hullLayers T fuel hull clipped = some (.ok hl)) :
    (hull = none ∧ hl = []) ∨ ∃ vs g, hull = some vs ∧ closedGraph T fuel clipped = some (.ok g) ∧ hl = [lineLayer "voronoi_clipped" "voronoi" clipped, closedLayer T g] := by
  unfold hullLayers at h
  cases hull with
  | none => cases h; exact .inl ⟨rfl, rfl⟩
  | some vs =>
    dsimp only at h
    cases h1 : closedGraph T fuel clipped with
    | none => rw [h1] at h; cases h
    | some r =>
      rw [h1] at h
      cases r with
      | error e => cases h
      | ok g => cases h; exact .inr ⟨vs, g, rfl, rfl, rfl⟩

theorem clippingHull_ok {T : VoroTools K} {clip : Bool} {g : G (P K)} {hull : Option (List (P K))} (h : clippingHull T clip g = .ok hull) : hull.isSome = clip := by
  unfold clippingHull at h
  cases clip with
  | false => cases h; rfl
  | true =>
    rw [if_pos rfl] at h
    cases h1 : boundaryPolygon T.env g with
    | error e => rw [h1] at h; cases h
    | ok vs => rw [h1] at h; cases h; rfl

/-- **C168**, layers: without a selected shape nothing is drawn; otherwise, if the run ends without an exception, there are exactly the layers asked for, in order. -/
theorem C168_layers (T : VoroTools K) (o : VoroOpts) (eps : K) (page : Box K) (fuel fuel2 : Nat) (shapes : List (List (List (SegV (P K))))) :
    voroRun T o eps page fuel fuel2 [] = some (.ok []) ∧
    ∀ layers, shapes ≠ [] → voroRun T o eps page fuel fuel2 shapes = some (.ok layers) → layers.map VoroLayer.name = layerNames o := by
  refine ⟨rfl, ?_⟩
  intro layers hs h
  obtain ⟨g, hull, s, segs, clipped, hl, h1, h2, h3, h4, h5, h6, rfl⟩ := voroRun_ok hs h
  have hc := clippingHull_ok h2
  unfold layerNames
  rw [← hc]
  rcases hullLayers_ok h6 with ⟨rfl, rfl⟩ | ⟨vs, gg, rfl, -, rfl⟩ <;> unfold delaunayLayers <;>
    cases o.delaunay <;> cases o.triangles <;> rfl

/-- **C168**, styles: the layers of the diagram are drawn with the style of the diagram, those of the triangulation with that of the triangles. -/
theorem C168_styles (T : VoroTools K) (o : VoroOpts) (eps : K) (page : Box K) (fuel fuel2 : Nat) (shapes : List (List (List (SegV (P K)))))
    (layers : List (VoroLayer K)) (h : voroRun T o eps page fuel fuel2 shapes = some (.ok layers)) (L : VoroLayer K) (hL : L ∈ layers) :
    L.style = if L.name ∈ ["voronoi_diagram", "voronoi_clipped", "voronoi_closed"] then "voronoi" else "delaunay_triangle" := by
  by_cases hs : shapes = []
  · subst hs; cases h; cases hL
  obtain ⟨g, hull, s, segs, clipped, hl, h1, h2, h3, h4, h5, h6, rfl⟩ := voroRun_ok hs h
  have key : ∀ L ∈ lineLayer "voronoi_diagram" "voronoi" segs :: (hl ++ delaunayLayers o (clippedDelaunay eps s.made hull) s),
      (L.name, L.style) ∈ [("voronoi_diagram", "voronoi"), ("voronoi_clipped", "voronoi"), ("voronoi_closed", "voronoi"),
        ("delaunay_edges", "delaunay_triangle"), ("delaunay_triangles", "delaunay_triangle")] := by
    intro L hL
    rcases hullLayers_ok h6 with ⟨rfl, rfl⟩ | ⟨vs, gg, rfl, -, rfl⟩ <;> unfold delaunayLayers at hL <;>
      cases hd : o.delaunay <;> cases ht : o.triangles <;>
      simp [hd, ht] at hL <;> rcases hL with rfl | rfl | rfl | rfl | rfl <;> simp [lineLayer, closedLayer]
  have := key L hL
  simp only [List.mem_cons, List.not_mem_nil, or_false, Prod.mk.injEq] at this
  rcases this with ⟨a, b⟩ | ⟨a, b⟩ | ⟨a, b⟩ | ⟨a, b⟩ | ⟨a, b⟩ <;> rw [a, b] <;> decide

/-! ## Closed cells -/

theorem segmentGraph_spec (env : GEnv (P K)) (ls : List (Line K)) :
    ∃ g, segmentGraph env ls = .ok g ∧ g.WF ∧ ∀ x y, g.HasEdge x y ↔ x ≠ y ∧ ∃ l ∈ ls, (l.p1 = x ∧ l.p2 = y) ∨ (l.p1 = y ∧ l.p2 = x) := by
  have hs : NoCurves [ls.map fun l => SegV.line l.p1 l.p2] := by
    intro s hs a c d b e
    simp only [List.flatten_cons, List.flatten_nil, List.append_nil, List.mem_map] at hs
    obtain ⟨l, -, rfl⟩ := hs
    cases e
  obtain ⟨g, h1, h2, h3, -⟩ := drawingGraph_spec env hs
  refine ⟨g, ?_, h2, fun x y => ?_⟩
  · rw [← h1]; unfold segmentGraph drawingGraph; simp
  · rw [h3]
    unfold JoinedIn
    simp [SegV.ends, Prod.mk.injEq]

theorem cullLoop_mono {V : Type} [DecidableEq V] (iter : Nat → List (V × V) → List (V × V)) (k : Nat) : ∀ (fuel n : Nat) (g : G V) (r : Except PyErr (G V)),
    g.cullLoop iter fuel n = some r → g.cullLoop iter (fuel + k) n = some r := by
  intro fuel
  induction fuel with
  | zero => intro n g r h; cases h
  | succ fuel ih =>
    intro n g r h
    rw [show fuel + 1 + k = fuel + k + 1 by omega]
    unfold G.cullLoop at h ⊢
    dsimp only at h ⊢
    split
    · rename_i hz; rw [if_pos hz] at h; exact h
    · rename_i hz
      rw [if_neg hz] at h
      cases hr : g.removeAll (List.filter g.isOpen (iter n g.edges)) with
      | error e => rw [hr] at h; exact h
      | ok g' => rw [hr] at h; exact ih _ _ _ h

theorem cull_any {V : Type} [DecidableEq V] (env : GEnv V) (iter : Nat → List (V × V) → List (V × V)) (hiter : ∀ n l, (iter n l).Perm l)
    (korder : List V → List V) {g g' : G V} (h : g.WF) {fuel : Nat} (hc : g.cull env iter korder fuel = some (.ok g')) :
    g'.WF ∧ (∀ x y, g'.HasEdge x y → g.HasEdge x y) ∧ (∀ v ∈ g'.keys, (g'.adj v).length ≠ 1) ∧
      ∀ S : V → V → Prop, (∀ a b, S a b → S b a) → (∀ a b, S a b → g.HasEdge a b) → Closed2 S → ∀ a b, S a b → g'.HasEdge a b := by
  obtain ⟨g'', u1, u⟩ := C66_cull env iter hiter korder h (fuel + (g.edges.length + 1)) (by omega)
  have : g.cull env iter korder (fuel + (g.edges.length + 1)) = some (.ok g') := by
    unfold G.cull at hc ⊢
    cases hr : g.cullLoop iter fuel 0 with
    | none => rw [hr] at hc; cases hc
    | some r => rw [hr] at hc; rw [cullLoop_mono iter _ _ _ _ _ hr]; exact hc
  rw [this] at u1
  cases u1
  exact u

/-- **C168**, closed cells: what is drawn as closed cells is the largest part of what is drawn clipped to the polygon that has no loose ends: no line is drawn twice or without length, each is one of
the clipped ones, at each of its ends there is another one, and if some of the clipped lines have no loose ends, they are all drawn. -/
theorem C168_closed (T : VoroTools K) (hT : T.Fair) (o : VoroOpts) (eps : K) (page : Box K) (fuel fuel2 : Nat) (shapes : List (List (List (SegV (P K)))))
    (layers : List (VoroLayer K)) (h : voroRun T o eps page fuel fuel2 shapes = some (.ok layers)) (C D : VoroLayer K) (hC : C ∈ layers) (hD : D ∈ layers)
    (nC : C.name = "voronoi_clipped") (nD : D.name = "voronoi_closed") :
    D.shapes.Nodup ∧ (∀ x ∈ D.shapes, ∃ p q, x = .line p q ∧ p ≠ q ∧ .line q p ∉ D.shapes) ∧
    (∀ p q, D.Joins p q → C.Joins p q) ∧ (∀ p q, D.Joins p q → ∃ r, r ≠ q ∧ D.Joins p r) ∧
    ∀ S : P K → P K → Prop, (∀ p q, S p q → S q p) → (∀ p q, S p q → p ≠ q ∧ C.Joins p q) → (∀ p q, S p q → ∃ r, r ≠ q ∧ S p r) → ∀ p q, S p q → D.Joins p q := by
  have hs : shapes ≠ [] := by
    rintro rfl
    cases h
    exact absurd hC (by simp)
  obtain ⟨g, hull, s, segs, clipped, hl, h1, h2, h3, h4, h5, h6, rfl⟩ := voroRun_ok hs h
  have notDel : ∀ L ∈ delaunayLayers o (clippedDelaunay eps s.made hull) s, L.name = "delaunay_edges" ∨ L.name = "delaunay_triangles" := by
    intro L hL
    unfold delaunayLayers at hL
    simp only [List.mem_append, List.mem_ite_nil_right, List.mem_singleton] at hL
    rcases hL with ⟨-, rfl⟩ | ⟨-, rfl⟩
    · exact .inl rfl
    · exact .inr rfl
  have inHl : ∀ L : VoroLayer K, L ∈ lineLayer "voronoi_diagram" "voronoi" segs :: (hl ++ delaunayLayers o (clippedDelaunay eps s.made hull) s) →
      L.name = "voronoi_clipped" ∨ L.name = "voronoi_closed" → L ∈ hl := by
    intro L hL hn
    rw [List.mem_cons, List.mem_append] at hL
    rcases hL with rfl | hL | hL
    · rcases hn with hn | hn <;> exact absurd hn (by simp [lineLayer])
    · exact hL
    · exfalso
      rcases notDel L hL with e | e <;> rw [e] at hn <;> rcases hn with hn | hn <;> exact absurd hn (by decide)
  have hC' := inHl C hC (.inl nC)
  have hD' := inHl D hD (.inr nD)
  rcases hullLayers_ok h6 with ⟨-, rfl⟩ | ⟨vs, gg, -, hcl, rfl⟩
  · simp at hC'
  · have eC : C = lineLayer "voronoi_clipped" "voronoi" clipped := by
      simp only [List.mem_cons, List.not_mem_nil, or_false] at hC'
      rcases hC' with rfl | rfl
      · rfl
      · exact absurd nC (by simp [closedLayer])
    have eD : D = closedLayer T gg := by
      simp only [List.mem_cons, List.not_mem_nil, or_false] at hD'
      rcases hD' with rfl | rfl
      · exact absurd nD (by simp [lineLayer])
      · rfl
    obtain ⟨g0, e0, w0, E0⟩ := segmentGraph_spec T.env clipped
    unfold closedGraph at hcl
    rw [e0] at hcl
    dsimp only at hcl
    have hgg := cull_any T.env T.iter hT.rounds T.nodeOrder w0 hcl
    obtain ⟨w, k3, k4, k5⟩ := hgg
    have jD : ∀ p q, D.Joins p q ↔ gg.HasEdge p q := by
      intro p q
      rw [eD]
      unfold VoroLayer.Joins closedLayer G.HasEdge
      simp only [List.mem_map, VoroShape.line.injEq, (hT.edges _).mem_iff, Prod.exists, exists_eq_right_right, exists_eq_right]
    have jC : ∀ p q, p ≠ q → (C.Joins p q ↔ g0.HasEdge p q) := by
      intro p q hpq
      rw [eC, E0]
      unfold VoroLayer.Joins lineLayer
      simp only [List.mem_map, VoroShape.line.injEq]
      constructor
      · rintro (⟨l, m, e⟩ | ⟨l, m, e⟩)
        · exact ⟨hpq, l, m, .inl e⟩
        · exact ⟨hpq, l, m, .inr e⟩
      · rintro ⟨-, l, m, e | e⟩
        · exact .inl ⟨l, m, e⟩
        · exact .inr ⟨l, m, e⟩
    have hne : ∀ p q, gg.HasEdge p q → p ≠ q := by
      rintro p q (e | e) rfl <;> exact w.simple _ e rfl
    refine ⟨?_, ?_, ?_, ?_, ?_⟩
    · rw [eD]
      unfold closedLayer
      refine List.Nodup.map ?_ ((hT.edges _).nodup_iff.2 (List.Nodup.of_map _ (edges_nodup w)))
      rintro ⟨a, b⟩ ⟨c, d⟩ e
      cases e; rfl
    · intro x hx
      have hx0 := hx
      rw [eD] at hx
      unfold closedLayer at hx
      simp only [List.mem_map, (hT.edges _).mem_iff] at hx
      obtain ⟨⟨p, q⟩, m, rfl⟩ := hx
      refine ⟨p, q, rfl, w.simple _ m, ?_⟩
      intro m2
      rw [eD] at m2
      unfold closedLayer at m2
      simp only [List.mem_map, (hT.edges _).mem_iff, Prod.exists, VoroShape.line.injEq, exists_eq_right_right, exists_eq_right] at m2
      have hpq := w.simple _ m
      have hd := w.distinct
      rw [List.pairwise_iff_getElem] at hd
      obtain ⟨i, hi, ei⟩ := List.mem_iff_getElem.1 m
      obtain ⟨j, hj, ej⟩ := List.mem_iff_getElem.1 m2
      rcases lt_trichotomy i j with hij | hij | hij
      · refine hd i j hi hj hij ?_
        rw [ei, ej]
        exact .inr ⟨rfl, rfl⟩
      · subst hij
        rw [ei] at ej
        exact hpq (Prod.mk.inj ej).1
      · refine hd j i hj hi hij ?_
        rw [ei, ej]
        exact .inr ⟨rfl, rfl⟩
    · intro p q hpq
      rw [jD] at hpq
      rw [jC p q (hne p q hpq)]
      exact k3 p q hpq
    · intro p q hpq
      rw [jD] at hpq
      obtain ⟨m, m2⟩ := (w.adjacent p q).2 hpq
      have hlen := k4 p m
      by_contra hno
      push Not at hno
      have hall : ∀ c ∈ gg.adj p, c = q := by
        intro c hc
        by_contra hcq
        exact hno c hcq ((jD p c).2 ((w.adjacent p c).1 ⟨m, hc⟩))
      have hnd := w.adjNodup p m
      have : gg.adj p = [q] := by
        cases hl : gg.adj p with
        | nil => rw [hl] at m2; simp at m2
        | cons a r =>
          rw [hl] at hall hnd
          have ha := hall a (by simp)
          cases r with
          | nil => rw [ha]
          | cons b r =>
            have hb := hall b (by simp)
            rw [ha, hb] at hnd
            simp at hnd
      rw [this] at hlen
      simp at hlen
    · intro S s1 s2 s3 p q hpq
      rw [jD]
      exact k5 S s1 (fun a b hab => (jC a b (s2 a b hab).1).1 (s2 a b hab).2) s3 p q hpq

/-! ## The run ends -/

theorem inputPoints_length (paths : List (List (SegV (P K)))) : (inputPoints paths).length ≤ 2 * paths.flatten.length := by
  unfold inputPoints
  refine le_trans (List.dedup_sublist _).length_le ?_
  generalize paths.flatten = l
  induction l with
  | nil => simp
  | cons s l ih =>
    rw [List.flatMap_cons, List.length_append, segPoints_ends]
    simp only [List.length_cons, List.length_nil]
    omega

theorem jiggleAll_length (T : VoroTools K) (ps : List (P K)) : ∀ i, (jiggleAll T i ps).length = ps.length := by
  induction ps with
  | nil => intro i; rfl
  | cons p ps ih => intro i; simp [jiggleAll, ih]

theorem diagramPoints_length (T : VoroTools K) (hT : T.Fair) (jig : Bool) (paths : List (List (SegV (P K)))) : (diagramPoints T jig paths).length ≤ 2 * paths.flatten.length := by
  unfold diagramPoints
  split
  · rw [jiggleAll_length, (hT.points _).length_eq]; exact inputPoints_length paths
  · rw [(hT.points _).length_eq]; exact inputPoints_length paths

/-- **C168**, the run ends: six turns of the sweep for each segment of the drawing are enough, and a number of rounds for the open edges that depends on the drawing. -/
theorem C168_ends (T : VoroTools K) (hT : T.Fair) (o : VoroOpts) (eps : K) (page : Box K) (shapes : List (List (List (SegV (P K))))) (fuel : Nat)
    (hf : 6 * shapes.flatten.flatten.length ≤ fuel) :
    ∃ least, ∀ fuel2, least ≤ fuel2 → ∃ r, voroRun T o eps page fuel fuel2 shapes = some r := by
  unfold voroRun
  by_cases hs : shapes = []
  · exact ⟨0, fun _ _ => ⟨_, by rw [if_pos hs]⟩⟩
  simp only [if_neg hs]
  cases h1 : drawingGraph T.env shapes.flatten with
  | error e => exact ⟨0, fun _ _ => ⟨_, rfl⟩⟩
  | ok g =>
    dsimp only
    cases h2 : clippingHull T o.clip g with
    | error e => exact ⟨0, fun _ _ => ⟨_, rfl⟩⟩
    | ok hull =>
      dsimp only [diagramRun]
      cases h3 : Voronoi.voronoi fuel (diagramPoints T o.jiggle shapes.flatten) with
      | none =>
        exfalso
        have hl := diagramPoints_length T hT o.jiggle shapes.flatten
        rcases Voronoi.voronoi_spec fuel (diagramPoints T o.jiggle shapes.flatten) with ⟨_, h⟩ | h | ⟨_, h⟩ | ⟨_, s, _, h, _⟩
        · omega
        · rw [h3] at h; cases h
        · rw [h3] at h; cases h
        · rw [h3] at h; cases h
      | some r =>
        cases r with
        | error e => exact ⟨0, fun _ _ => ⟨_, rfl⟩⟩
        | ok s =>
          dsimp only [drawVoronoi]
          cases h4 : clippedBoth eps page hull s with
          | error e => exact ⟨0, fun _ _ => ⟨_, rfl⟩⟩
          | ok sc =>
            obtain ⟨segs, clipped⟩ := sc
            dsimp only
            cases hull with
            | none => exact ⟨0, fun _ _ => ⟨_, rfl⟩⟩
            | some vs =>
              obtain ⟨g0, e0, w0, -⟩ := segmentGraph_spec T.env clipped
              refine ⟨g0.edges.length + 1, fun fuel2 h5 => ?_⟩
              obtain ⟨g', u1, -⟩ := C66_cull T.env T.iter hT.rounds T.nodeOrder w0 fuel2 (by omega)
              unfold hullLayers closedGraph
              simp only [e0, u1]
              exact ⟨_, rfl⟩

end

/-! ## What is drawn -/

section
open Classical

/-- **C168**, the diagram: the first layer shows the edges of the diagram of the end points on the page, each in turn, with the tolerance of C157 at the border (and for the diagrams that are drawn rightly
there); each triangle drawn is closed and has points of the diagram as corners; and without a polygon the Delaunay layer joins, for each edge, the two points whose cells it separates. -/
theorem C168_drawn_partial (T : VoroTools ℝ) (o : VoroOpts) (eps : ℝ) (heps : 0 < eps) (page : Box ℝ) (fuel fuel2 : Nat) (shapes : List (List (List (SegV (P ℝ)))))
    (hs : shapes ≠ []) (layers : List (VoroLayer ℝ)) (h : voroRun T o eps page fuel fuel2 shapes = some (.ok layers)) :
    ∃ s : Voronoi.State ℝ, Voronoi.voronoi fuel (diagramPoints T o.jiggle shapes.flatten) = some (.ok s) ∧
      ((∀ d ∈ s.out, Drawable eps page d) → ∃ (first : VoroLayer ℝ) (rs : List (Option (Line ℝ))), layers.head? = some first ∧
        first.shapes = (rs.filterMap id).map (fun l => .line l.p1 l.p2) ∧ List.Forall₂ (ShowsEdge eps page) s.out rs) ∧
      (∀ L ∈ layers, L.name = "delaunay_edges" → o.clip = false → L.shapes = s.made.map fun e => .line (delaunayLine e).p1 (delaunayLine e).p2) ∧
      (∀ L ∈ layers, L.name = "delaunay_triangles" → L.shapes.length = s.tris.length ∧ ∀ x ∈ L.shapes, ∃ a ∈ diagramPoints T o.jiggle shapes.flatten,
        ∃ b ∈ diagramPoints T o.jiggle shapes.flatten, ∃ c ∈ diagramPoints T o.jiggle shapes.flatten, x = .polygon [a, b, c, a] ∨ (a = c ∧ x = .polygon [a, b, c])) := by
  obtain ⟨g, hull, s, segs, clipped, hl, h1, h2, h3, h4, h5, h6, rfl⟩ := voroRun_ok hs h
  have hc := clippingHull_ok h2
  have hlName : ∀ L ∈ hl, L.name = "voronoi_clipped" ∨ L.name = "voronoi_closed" := by
    intro L hL
    rcases hullLayers_ok h6 with ⟨-, rfl⟩ | ⟨vs, gg, -, -, rfl⟩
    · simp at hL
    · simp only [List.mem_cons, List.not_mem_nil, or_false] at hL
      rcases hL with rfl | rfl
      · exact .inl rfl
      · exact .inr rfl
  refine ⟨s, h3, ?_, ?_, ?_⟩
  · intro hd
    obtain ⟨rs, e1, e2⟩ := C157_drawn_partial eps heps page s.out hd
    rw [h4] at e1
    cases e1
    exact ⟨_, rs, rfl, rfl, e2⟩
  · intro L hL hn hcl
    rw [List.mem_cons, List.mem_append] at hL
    rcases hL with rfl | hL | hL
    · exact absurd hn (by simp [lineLayer])
    · rcases hlName L hL with e | e <;> rw [e] at hn <;> exact absurd hn (by decide)
    · unfold delaunayLayers at hL
      simp only [List.mem_append, List.mem_ite_nil_right, List.mem_singleton] at hL
      rcases hL with ⟨-, rfl⟩ | ⟨-, rfl⟩
      · rw [hcl] at hc
        cases hull with
        | some vs => cases hc
        | none => simp [lineLayer, (C158_delaunay_partial eps heps s.made).1]
      · exact absurd hn (by simp)
  · intro L hL hn
    rw [List.mem_cons, List.mem_append] at hL
    rcases hL with rfl | hL | hL
    · exact absurd hn (by simp [lineLayer])
    · rcases hlName L hL with e | e <;> rw [e] at hn <;> exact absurd hn (by decide)
    · unfold delaunayLayers at hL
      simp only [List.mem_append, List.mem_ite_nil_right, List.mem_singleton] at hL
      rcases hL with ⟨-, rfl⟩ | ⟨-, rfl⟩
      · exact absurd hn (by simp [lineLayer])
      · refine ⟨by simp, fun x hx => ?_⟩
        obtain ⟨t, ht, rfl⟩ := List.mem_map.1 hx
        obtain ⟨t1, t2, t3⟩ := Voronoi.C145_triangles_partial fuel _ s h3 t ht
        refine ⟨_, t1, _, t2, _, t3, ?_⟩
        unfold triangleShape
        by_cases hac : (⟨t.1.x, t.1.y⟩ : P ℝ) = ⟨t.2.2.x, t.2.2.y⟩
        · right; exact ⟨hac, by simp only [if_pos hac]; rfl⟩
        · left; simp only [if_neg hac]; rfl

/-- **C168**, jiggled points: they are the end points of the drawing, each moved by at most a ten-millionth of its coordinates. -/
theorem C168_jiggled (T : VoroTools ℝ) (hT : T.Fair) (hsg : ∀ i, T.sign i = 1 ∨ T.sign i = -1) (hx : ∀ i, 0 ≤ T.rx i ∧ T.rx i ≤ 1) (hy : ∀ i, 0 ≤ T.ry i ∧ T.ry i ≤ 1)
    (paths : List (List (SegV (P ℝ)))) :
    ∃ ps : List (P ℝ), ps.Nodup ∧ (∀ p, p ∈ ps ↔ IsEndIn paths p) ∧
      List.Forall₂ (fun p q => |q.x - p.x| ≤ |p.x| / 10 ^ 7 ∧ |q.y - p.y| ≤ |p.y| / 10 ^ 7) ps (diagramPoints T true paths) := by
  refine ⟨T.pointOrder (inputPoints paths), (hT.points _).nodup_iff.2 (List.nodup_dedup _), fun p => by rw [(hT.points _).mem_iff, mem_inputPoints], ?_⟩
  unfold diagramPoints
  rw [if_pos rfl]
  have key : ∀ (ps : List (P ℝ)) i, List.Forall₂ (fun p q => |q.x - p.x| ≤ |p.x| / 10 ^ 7 ∧ |q.y - p.y| ≤ |p.y| / 10 ^ 7) ps (jiggleAll T i ps) := by
    intro ps
    induction ps with
    | nil => intro i; exact .nil
    | cons p ps ih =>
      intro i
      obtain ⟨-, h1, -, h2⟩ := Voronoi.C145_jiggle_partial (T.sign i) (T.rx i) (T.ry i) (hsg i) (hx i) (hy i) p
      exact .cons ⟨h1, h2⟩ (ih _)
  exact key _ 0

theorem jiggleAll_get (T : VoroTools ℝ) (ps : List (P ℝ)) (i k : Nat) :
    (jiggleAll T i ps)[k]? = (ps[k]?).map fun p => Voronoi.jiggle (T.sign (i + k)) (T.rx (i + k)) (T.ry (i + k)) p := by
  induction ps generalizing i k with
  | nil => simp [jiggleAll]
  | cons p ps ih =>
    cases k with
    | zero => simp [jiggleAll]
    | succ k => simp [jiggleAll, ih, Nat.add_assoc, Nat.add_comm 1 k]

/-- **C168**, each point is moved by random numbers of its own: two points in a column off the axis do not stay in a column if their random numbers
differ (and their signs agree), whatever the other points are. -/
theorem C168_own_numbers (T : VoroTools ℝ) (paths : List (List (SegV (P ℝ)))) (i j : Nat) (p q : P ℝ)
    (hp : (T.pointOrder (inputPoints paths))[i]? = some p) (hq : (T.pointOrder (inputPoints paths))[j]? = some q)
    (hx : p.x = q.x) (h0 : p.x ≠ 0) (hs : T.sign i = T.sign j) (hs0 : T.sign i ≠ 0) (hr : T.rx i ≠ T.rx j) :
    ∃ p' q' : P ℝ, (diagramPoints T true paths)[i]? = some p' ∧ (diagramPoints T true paths)[j]? = some q' ∧ p'.x ≠ q'.x := by
  unfold diagramPoints
  rw [if_pos rfl, jiggleAll_get, jiggleAll_get, hp, hq]
  refine ⟨_, _, rfl, rfl, ?_⟩
  simp only [Nat.zero_add, Voronoi.jiggle, Voronoi.jiggle1, real_add, real_mul, real_sub, real_ofInt, real_abs]
  rw [← hx, ← hs]
  intro h
  have hl : (lit 1 9 : ℝ) = 1 / 10 ^ 9 := by show ((1 : ℤ) : ℝ) / 10 ^ 9 = _; norm_num
  rw [hl] at h
  have ha : |p.x| ≠ 0 := abs_ne_zero.mpr h0
  have h1 : (|p.x| * T.sign i) * (T.rx i - T.rx j) = 0 := by push_cast at h; linear_combination 10 ^ 9 / 90 * h
  rcases mul_eq_zero.mp h1 with h2 | h2
  · exact (mul_ne_zero ha hs0) h2
  · exact hr (by linarith)

/-- An upright line: its two ends get different X coordinates from the random numbers 0 and 1. -/
example (env : GEnv (P ℝ)) (it : Nat → List (P ℝ × P ℝ) → List (P ℝ × P ℝ)) :
    let T : VoroTools ℝ := ⟨env, id, fun _ => 1, fun i => i, fun _ => 0, it, id, id⟩
    ∃ p' q' : P ℝ, (diagramPoints T true [[.line ⟨1, 0⟩ ⟨1, 5⟩]])[0]? = some p' ∧ (diagramPoints T true [[.line ⟨1, 0⟩ ⟨1, 5⟩]])[1]? = some q' ∧ p'.x ≠ q'.x := by
  intro T
  have h : T.pointOrder (inputPoints [[.line ⟨1, 0⟩ ⟨1, 5⟩]]) = [⟨1, 0⟩, ⟨1, 5⟩] := by
    show (inputPoints [[.line ⟨1, 0⟩ ⟨1, 5⟩]] : List (P ℝ)) = _
    unfold inputPoints
    simp [segPoints]
  exact C168_own_numbers T _ 0 1 ⟨1, 0⟩ ⟨1, 5⟩ (by rw [h]; rfl) (by rw [h]; rfl) rfl one_ne_zero rfl one_ne_zero (by simp [T])

end

/-! ## Examples and parts that fail -/

/-- The comparisons of the graph code for points with rational coordinates. -/
def envQ : GEnv (P ℚ) where
  yLt a b := decide (a.y < b.y)
  ccwLt c a b :=
    let up (p : P ℚ) : Bool := decide (c.y < p.y) || (decide (c.y = p.y) && decide (c.x < p.x))
    (up a && !(up b)) || (up a == up b && decide (0 < (a.x - c.x) * (b.y - c.y) - (a.y - c.y) * (b.x - c.x)))
  straightLt _ _ _ _ := false

/-- Iteration in the order of the lists. -/
def toolsVQ : VoroTools ℚ := ⟨envQ, id, fun _ => 1, fun _ => 0, fun _ => 0, fun _ l => l, id, id⟩

theorem toolsVQ_fair : toolsVQ.Fair := ⟨fun _ => .refl _, fun _ _ => .refl _, fun _ => .refl _⟩

/-- A line of a drawing. -/
def segQ (a b c d : ℚ) : SegV (P ℚ) := .line ⟨a, b⟩ ⟨c, d⟩

/-- A hexagon with a point inside that is joined to two corners. -/
def hexagonQ : List (List (List (SegV (P ℚ)))) :=
  [[[segQ 1 0 6 (-1), segQ 6 (-1) 11 1, segQ 11 1 10 10, segQ 10 10 4 11, segQ 4 11 (-3) 6, segQ (-3) 6 1 0, segQ 1 0 5 5, segQ 5 5 6 (-1)]]]

/-- The page of the examples. -/
def pageVQ : Box ℚ := ⟨⟨-10, -10⟩, ⟨20, 20⟩⟩

/-- How many things are drawn in each layer. -/
def layerSizes (r : Option (Except PyErr (List (VoroLayer ℚ)))) : Option (List (String × Nat)) :=
  match r with
  | some (.ok ls) => some (ls.map fun L => (L.name, L.shapes.length))
  | _ => none

/-- The hypotheses are met: of the twelve edges of the diagram of a hexagon with a point inside, all on the page and each with a part in the hexagon, the six around the inner cell are closed. -/
example : layerSizes (voroRun toolsVQ ⟨false, true, true, true⟩ (1 / 10 ^ 9) pageVQ 48 30 hexagonQ) =
    some [("voronoi_diagram", 12), ("voronoi_clipped", 12), ("voronoi_closed", 6), ("delaunay_edges", 12), ("delaunay_triangles", 6)] := by
  decide +kernel

/-- The exception of a run. -/
def runError (r : Option (Except PyErr (List (VoroLayer ℚ)))) : Option PyErr :=
  match r with
  | some (.error e) => some e
  | _ => none

/-- **C168** refuted, polygon: when the lowest point of the drawing is the end of a chain of lines, clipping to the polygon raises `TypeError`, and nothing is drawn. -/
theorem C168_chain_refuted : ¬ ∀ (T : VoroTools ℚ), T.Fair → ∀ (o : VoroOpts) (eps : ℚ) (page : Box ℚ) (fuel fuel2 : Nat) (shapes : List (List (List (SegV (P ℚ))))),
    6 * shapes.flatten.flatten.length ≤ fuel → ∀ e, voroRun T o eps page fuel fuel2 shapes = some (.error e) → e = .zeroDivision := by
  intro hall
  have h := hall toolsVQ toolsVQ_fair ⟨false, false, false, true⟩ (1 / 10 ^ 9) pageVQ 30 30
    [[[segQ 5 0 5 1, segQ 5 1 5 2, segQ 5 2 6 3, segQ 6 3 4 3, segQ 4 3 5 2]]] (by decide)
  have e : runError (voroRun toolsVQ ⟨false, false, false, true⟩ (1 / 10 ^ 9) pageVQ 30 30 [[[segQ 5 0 5 1, segQ 5 1 5 2, segQ 5 2 6 3, segQ 6 3 4 3, segQ 4 3 5 2]]]) = some .typeError := by
    decide +kernel
  generalize voroRun toolsVQ _ _ _ _ _ _ = r at h e
  match r, h, e with
  | none, _, e => cases e
  | some (.ok _), _, e => cases e
  | some (.error x), h, e =>
    have hx := h x rfl
    subst hx
    cases e

/-- The styles of the layers. -/
def layerStyles (r : Option (Except PyErr (List (VoroLayer ℚ)))) : List (String × String) :=
  match r with
  | some (.ok ls) => ls.map fun L => (L.name, L.style)
  | _ => []

/-- **C168** refuted, style: the Delaunay edges are drawn in the style of the triangles; the style `delaunay` is not used. And of a drawing with four end points or fewer no edge is drawn: the layers are empty. -/
theorem C168_style_refuted :
    layerStyles (voroRun toolsVQ ⟨false, false, true, false⟩ (1 / 10 ^ 9) pageVQ 12 30 [[[segQ 0 0 1 1, segQ 1 1 2 0]]]) =
      [("voronoi_diagram", "voronoi"), ("delaunay_edges", "delaunay_triangle")] ∧
    layerSizes (voroRun toolsVQ ⟨false, false, true, false⟩ (1 / 10 ^ 9) pageVQ 12 30 [[[segQ 0 0 1 1, segQ 1 1 2 0]]]) = some [("voronoi_diagram", 0), ("delaunay_edges", 0)] := by
  constructor <;> decide +kernel

/-- **C168** refuted, jiggling: with the default options the points are jiggled but the polygon is not. Then a side of the polygon may be missing from the Delaunay edges inside it: here the lower side of a
square, both ends of which are moved down, although the tolerance is that of the extension. -/
theorem C168_jiggle_refuted : ¬ ∀ (eps : ℝ), 0 < eps → ∀ (vs : List (P ℝ)) (a b : P ℝ), (a, b) ∈ sides vs → ∀ sign rx ry rx' ry' : ℝ, sign = 1 ∨ sign = -1 →
    0 ≤ rx ∧ rx ≤ 1 → 0 ≤ ry ∧ ry ≤ 1 → 0 ≤ rx' ∧ rx' ≤ 1 → 0 ≤ ry' ∧ ry' ≤ 1 →
    lineInsideHull eps vs ⟨Voronoi.jiggle sign rx ry a, Voronoi.jiggle sign rx' ry' b⟩ true = true := by
  intro hall
  have h := hall (1 / 10 ^ 9) (by norm_num) [⟨1, 1⟩, ⟨3, 1⟩, ⟨3, 3⟩, ⟨1, 3⟩] ⟨1, 1⟩ ⟨3, 1⟩ (by simp [sides]) (-1) 0 0 0 0 (by norm_num) (by norm_num) (by norm_num) (by norm_num) (by norm_num)
  rw [show Voronoi.jiggle (-1 : ℝ) 0 0 ⟨1, 1⟩ = ⟨1 - 1 / 10 ^ 8, 1 - 1 / 10 ^ 8⟩ by
    unfold Voronoi.jiggle Voronoi.jiggle1; rw [lit_real]; apply P.ext_real <;> norm_num,
    show Voronoi.jiggle (-1 : ℝ) 0 0 ⟨3, 1⟩ = ⟨3 - 3 / 10 ^ 8, 1 - 1 / 10 ^ 8⟩ by
    unfold Voronoi.jiggle Voronoi.jiggle1; rw [lit_real]; apply P.ext_real <;> norm_num] at h
  have hm : polyPointInside [⟨1, 1⟩, ⟨3, 1⟩, ⟨3, 3⟩, ⟨1, 3⟩] (Line.midpoint ⟨⟨1 - 1 / 10 ^ 8, 1 - 1 / 10 ^ 8⟩, ⟨3 - 3 / 10 ^ 8, 1 - 1 / 10 ^ 8⟩⟩ : P ℝ) = false := by
    rw [midpoint_segPt]
    norm_num [segPt, polyPointInside, cycPairs, pairsFrom, edgeCrosses]
  have hs : isSide (1 / 10 ^ 9) [⟨1, 1⟩, ⟨3, 1⟩, ⟨3, 3⟩, ⟨1, 3⟩] (⟨⟨1 - 1 / 10 ^ 8, 1 - 1 / 10 ^ 8⟩, ⟨3 - 3 / 10 ^ 8, 1 - 1 / 10 ^ 8⟩⟩ : Line ℝ) = false := by
    rw [Bool.eq_false_iff, ne_eq, isSide_iff]
    norm_num [IsPolySide, sides, sqDist]
  unfold lineInsideHull at h
  rw [hm, hs] at h
  simp at h

end Verif.Ext
