import Verif.Voronoi.Props1
import Verif.Geom.Props1

/-!
# C145: the edges and the vertices of a Voronoi diagram (exact arithmetic), and what `VoronoiDiagram` fails to do
-/

set_option linter.unusedSectionVars false

namespace Verif.Voronoi
open Verif PyFloat PyTrig Geom

/-- Numbers are exact and `==` is equality: the real numbers and the rational numbers, with any `math.hypot`. -/
class ExactEq (K : Type) [PyTrig K] : Prop where
  beq : ∀ a b : K, PyTrig.beq a b = true ↔ a = b

instance : ExactEq ℝ := ⟨fun a b => by simp⟩
instance : ExactEq ℚ := ⟨fun a b => by show decide (a = b) = true ↔ _; simp⟩

section
variable {K : Type} [Field K] [LinearOrder K] [IsStrictOrderedRing K] [PyTrig K] [ExactFloat K] [X : ExactEq K]

/-- Specification: two points are equally far from a third (squared distances). -/
def Equidistant (z p q : P K) : Prop := (z.x - p.x) ^ 2 + (z.y - p.y) ^ 2 = (z.x - q.x) ^ 2 + (z.y - q.y) ^ 2

/-- The point of a site. -/
def Site.pt (s : Site K) : P K := ⟨s.x, s.y⟩

theorem pdiv_real {a b c : K} (h : pdiv a b = .ok c) : b ≠ 0 ∧ c = a / b := by
  unfold pdiv at h
  simp only [X.beq, decide_eq_true_eq] at h
  py at h
  split_ifs at h with hb
  exact ⟨hb, by cases h; rfl⟩

theorem mkEdge_real {n : Nat} {s1 s2 : Site K} {e : Edge K} (h : mkEdge n s1 s2 = .ok e) :
    s1.pt ≠ s2.pt ∧ ((e.a = 1 ∧ s2.x - s1.x ≠ 0 ∧ e.b = (s2.y - s1.y) / (s2.x - s1.x)) ∨ (e.b = 1 ∧ s2.y - s1.y ≠ 0 ∧ e.a = (s2.x - s1.x) / (s2.y - s1.y))) ∧
      ∀ z : P K, e.a * z.x + e.b * z.y = e.c ↔ Equidistant z s1.pt s2.pt := by
  unfold mkEdge at h
  split at h
  · cases h1 : pdiv (s2.y -. s1.y) (s2.x -. s1.x) with
    | error => rw [h1] at h; cases h
    | ok u =>
      cases h2 : pdiv (bisectorConst s1 s2) (s2.x -. s1.x) with
      | error => rw [h1, h2] at h; cases h
      | ok v =>
        rw [h1, h2] at h
        cases h
        obtain ⟨hb, hu⟩ := pdiv_real h1
        obtain ⟨-, hv⟩ := pdiv_real h2
        py at hb hu hv
        refine ⟨?_, .inl ⟨by py, hb, hu⟩, ?_⟩
        · intro e
          have := congrArg P.x e
          simp only [Site.pt] at this
          exact hb (by linarith)
        · intro z
          simp only [hu, hv, bisectorConst, Equidistant, Site.pt]
          py
          constructor
          · intro hz
            field_simp at hz
            linarith
          · intro hz
            field_simp
            linarith
  · cases h1 : pdiv (s2.x -. s1.x) (s2.y -. s1.y) with
    | error => rw [h1] at h; cases h
    | ok u =>
      cases h2 : pdiv (bisectorConst s1 s2) (s2.y -. s1.y) with
      | error => rw [h1, h2] at h; cases h
      | ok v =>
        rw [h1, h2] at h
        cases h
        obtain ⟨hb, hu⟩ := pdiv_real h1
        obtain ⟨-, hv⟩ := pdiv_real h2
        py at hb hu hv
        refine ⟨?_, .inr ⟨by py, hb, hu⟩, ?_⟩
        · intro e
          have := congrArg P.y e
          simp only [Site.pt] at this
          exact hb (by linarith)
        · intro z
          simp only [hu, hv, bisectorConst, Equidistant, Site.pt]
          py
          constructor
          · intro hz
            field_simp at hz
            linarith
          · intro hz
            field_simp
            linarith

theorem intersect_real {h1 h2 : Half K} {v : P K} (h : intersectHalf h1 h2 = .ok (some v)) :
    h1.edge.a * h2.edge.b - h1.edge.b * h2.edge.a ≠ 0 ∧ h1.edge.a * v.x + h1.edge.b * v.y = h1.edge.c ∧ h2.edge.a * v.x + h2.edge.b * v.y = h2.edge.c := by
  unfold intersectHalf at h
  split at h
  · cases h
  · dsimp only at h
    split at h
    · cases h
    · cases hx : pdiv (h1.edge.c *. h2.edge.b -. h2.edge.c *. h1.edge.b) (h1.edge.a *. h2.edge.b -. h1.edge.b *. h2.edge.a) with
      | error => rw [hx] at h; cases h
      | ok x =>
        cases hy : pdiv (h2.edge.c *. h1.edge.a -. h1.edge.c *. h2.edge.a) (h1.edge.a *. h2.edge.b -. h1.edge.b *. h2.edge.a) with
        | error => rw [hx, hy] at h; cases h
        | ok y =>
          rw [hx, hy] at h
          simp only [bind, Except.bind, pure, Except.pure, Except.ok.injEq] at h
          split at h
          · cases h
            obtain ⟨hd, hx⟩ := pdiv_real hx
            obtain ⟨-, hy⟩ := pdiv_real hy
            py at hd hx hy
            refine ⟨hd, ?_, ?_⟩
            · dsimp only
              rw [hx, hy, mul_div_assoc', mul_div_assoc', ← add_div, div_eq_iff hd]; ring
            · dsimp only
              rw [hx, hy, mul_div_assoc', mul_div_assoc', ← add_div, div_eq_iff hd]; ring
          · cases h

/-- A point where two half edges met is equally far from three different sites. -/
theorem met_real {S : List (Site K)} {v : P K} (h : Met S v) :
    ∃ a b c, a ∈ S ∧ b ∈ S ∧ c ∈ S ∧ a.pt ≠ b.pt ∧ b.pt ≠ c.pt ∧ a.pt ≠ c.pt ∧ Equidistant v a.pt b.pt ∧ Equidistant v b.pt c.pt := by
  obtain ⟨h1, h2, hi, hc, g1, g2⟩ := h
  obtain ⟨hd, e1, e2⟩ := intersect_real hi
  obtain ⟨n1, f1, l1⟩ := mkEdge_real g1.1
  obtain ⟨n2, f2, l2⟩ := mkEdge_real g2.1
  have q1 := (l1 v).1 e1
  have q2 := (l2 v).1 e2
  have side : ∀ (h : Half K), (h.leftSite = h.edge.s1 ∧ h.rightSite = h.edge.s2) ∨ (h.leftSite = h.edge.s2 ∧ h.rightSite = h.edge.s1) := by
    intro h
    unfold Half.leftSite Half.rightSite
    cases h.rightward <;> simp
  have m1 : h1.leftSite.pt ≠ h1.rightSite.pt ∧ Equidistant v h1.leftSite.pt h1.rightSite.pt := by
    rcases side h1 with ⟨a, b⟩ | ⟨a, b⟩ <;> rw [a, b]
    · exact ⟨n1, q1⟩
    · exact ⟨n1.symm, q1.symm⟩
  have m2 : h2.leftSite.pt ≠ h2.rightSite.pt ∧ Equidistant v h2.leftSite.pt h2.rightSite.pt := by
    rcases side h2 with ⟨a, b⟩ | ⟨a, b⟩ <;> rw [a, b]
    · exact ⟨n2, q2⟩
    · exact ⟨n2.symm, q2.symm⟩
  refine ⟨h1.leftSite, h1.rightSite, h2.rightSite, g1.left, g1.right, g2.right, m1.1, by rw [hc]; exact m2.1, ?_, m1.2, by rw [hc]; exact m2.2⟩
  intro hac
  -- the two edges would be parallel
  apply hd
  have key : ∀ (dx dy ex ey : K) (a b a' b' : K), ((a = 1 ∧ dx ≠ 0 ∧ b = dy / dx) ∨ (b = 1 ∧ dy ≠ 0 ∧ a = dx / dy)) →
      ((a' = 1 ∧ ex ≠ 0 ∧ b' = ey / ex) ∨ (b' = 1 ∧ ey ≠ 0 ∧ a' = ex / ey)) → dx * ey = dy * ex → a * b' - b * a' = 0 := by
    intro dx dy ex ey a b a' b' hf hf' hp
    rcases hf with ⟨rfl, h0, rfl⟩ | ⟨rfl, h0, rfl⟩ <;> rcases hf' with ⟨rfl, h0', rfl⟩ | ⟨rfl, h0', rfl⟩ <;> field_simp <;> linarith
  refine key _ _ _ _ _ _ _ _ f1 f2 ?_
  have hx := congrArg P.x hac
  have hy := congrArg P.y hac
  simp only [Site.pt] at hx hy
  rcases side h1 with ⟨a, b⟩ | ⟨a, b⟩ <;> rcases side h2 with ⟨a', b'⟩ | ⟨a', b'⟩ <;> rw [b, a'] at hc <;> rw [a, b'] at hx hy <;> rw [← hc, ← hx, ← hy] <;> ring

/-- **C145**, edges: the equation `a x + b y = c` of each edge of the diagram holds exactly for the points that are equally far from the two input points of its Delaunay edge, and these are different. -/
theorem C145_edges (fuel : Nat) (ps : List (P K)) (s : State K) (h : voronoi fuel ps = some (.ok s)) (e : Edge K) (ends : Option (P K) × Option (P K)) (he : (e, ends) ∈ s.out) :
    e.s1.pt ∈ ps ∧ e.s2.pt ∈ ps ∧ e.s1.pt ≠ e.s2.pt ∧ ∀ z : P K, e.a * z.x + e.b * z.y = e.c ↔ Equidistant z e.s1.pt e.s2.pt := by
  have hm : s.made[e.num]? = some e := (C144_edges_partial fuel ps s h).2.1 (e, ends) he
  rcases voronoi_spec fuel ps with ⟨h1, _⟩ | h1 | ⟨_, h1⟩ | ⟨env, t, _, h1, hi⟩
  · rw [h1] at h; cases h
  · rw [h1] at h; cases h
  · rw [h1] at h; cases h; simp [State.init] at he
  · rw [h1] at h
    cases h
    have hg : Good (siteList ps) e := hi.good e (List.mem_of_getElem? hm)
    have mem : ∀ q ∈ siteList ps, q.pt ∈ ps := by
      intro q hq
      obtain ⟨p, hp, hx, hy⟩ := (siteList_mem ps q).1 hq
      have : q.pt = p := by unfold Site.pt; rw [hx, hy]
      rw [this]; exact List.mem_of_getElem? hp
    obtain ⟨a, -, b⟩ := mkEdge_real hg.1
    exact ⟨mem _ hg.2.1, mem _ hg.2.2, a, b⟩

/-- **C145**, vertices: each vertex of the diagram is equally far from three different input points.  (That no input point is nearer is not proved.) -/
theorem C145_vertices_partial (fuel : Nat) (ps : List (P K)) (s : State K) (h : voronoi fuel ps = some (.ok s)) (v : P K) (hv : v ∈ s.vertices) :
    ∃ a ∈ ps, ∃ b ∈ ps, ∃ c ∈ ps, a ≠ b ∧ b ≠ c ∧ a ≠ c ∧ Equidistant v a b ∧ Equidistant v b c := by
  rcases voronoi_spec fuel ps with ⟨h1, _⟩ | h1 | ⟨_, h1⟩ | ⟨env, t, _, h1, hi⟩
  · rw [h1] at h; cases h
  · rw [h1] at h; cases h
  · rw [h1] at h; cases h; simp [State.init] at hv
  · rw [h1] at h
    cases h
    have mem : ∀ q ∈ siteList ps, q.pt ∈ ps := by
      intro q hq
      obtain ⟨p, hp, hx, hy⟩ := (siteList_mem ps q).1 hq
      have : q.pt = p := by unfold Site.pt; rw [hx, hy]
      rw [this]; exact List.mem_of_getElem? hp
    obtain ⟨a, b, c, ha, hb, hc, h1, h2, h3, h4, h5⟩ := met_real (hi.verts v hv)
    exact ⟨a.pt, mem a ha, b.pt, mem b hb, c.pt, mem c hc, h1, h2, h3, h4, h5⟩

/-- **C145**, triangles: the corners of the triangles are input points. -/
theorem C145_triangles_partial (fuel : Nat) (ps : List (P K)) (s : State K) (h : voronoi fuel ps = some (.ok s)) (t : Site K × Site K × Site K) (ht : t ∈ s.tris) :
    t.1.pt ∈ ps ∧ t.2.1.pt ∈ ps ∧ t.2.2.pt ∈ ps := by
  rcases voronoi_spec fuel ps with ⟨h1, _⟩ | h1 | ⟨_, h1⟩ | ⟨env, u, _, h1, hi⟩
  · rw [h1] at h; cases h
  · rw [h1] at h; cases h
  · rw [h1] at h; cases h; simp [State.init] at ht
  · rw [h1] at h
    cases h
    have mem : ∀ q ∈ siteList ps, q.pt ∈ ps := by
      intro q hq
      obtain ⟨p, hp, hx, hy⟩ := (siteList_mem ps q).1 hq
      have : q.pt = p := by unfold Site.pt; rw [hx, hy]
      rw [this]; exact List.mem_of_getElem? hp
    obtain ⟨a, b, c⟩ := hi.triS t ht
    exact ⟨mem _ a, mem _ b, mem _ c⟩

end

/-! ## The hash table of the beach line -/

/-- The bucket of any point of the input is 0: the table is never used. -/
theorem edgeBucket_zero (env : Env ℝ) (n : Nat) (hn : 2 ≤ n) (xmax x : ℝ) (hx : env.xmin < xmax) (hs : env.hashscale = (xmax - env.xmin) * n) (h1 : env.xmin ≤ x)
    (h2 : x ≤ xmax) : edgeBucket env n x = .ok 0 := by
  have hn' : (2 : ℝ) ≤ n := by exact_mod_cast hn
  have hpos : 0 < env.hashscale := by rw [hs]; exact mul_pos (by linarith) (by linarith)
  unfold edgeBucket pdiv
  simp only [real_beq, real_zero, hpos.ne', decide_false, Bool.false_eq_true, if_false, bind, Except.bind, pure, Except.pure, real_sub, real_div]
  have hq0 : 0 ≤ (x - env.xmin) / env.hashscale := div_nonneg (by linarith) hpos.le
  have hq1 : (x - env.xmin) / env.hashscale < 1 := by
    rw [div_lt_one hpos, hs]; nlinarith
  have ht : trunc ((x - env.xmin) / env.hashscale) = 0 := by
    show (if 0 ≤ (x - env.xmin) / env.hashscale then ⌊(x - env.xmin) / env.hashscale⌋ else ⌈(x - env.xmin) / env.hashscale⌉) = 0
    rw [if_pos hq0, Int.floor_eq_zero_iff]
    exact ⟨hq0, hq1⟩
  rw [ht]
  rw [if_neg (by omega)]
  rfl

/-! ## What fails -/

theorem foldl_const {α : Type} (f : ℝ → α → ℝ) (c : ℝ) (l : List α) (h : ∀ q ∈ l, f c q = c) : l.foldl f c = c := by
  induction l with
  | nil => rfl
  | cons a l ih =>
    rw [List.foldl_cons, h a (by simp)]
    exact ih fun q hq => h q (List.mem_cons_of_mem _ hq)

/-- A part of **C144** that fails: points with the same x (five or more) raise `ZeroDivisionError`. -/
theorem C144_refuted_column (fuel : Nat) (ps : List (P ℝ)) (h4 : 4 < ps.length) (x : ℝ) (hx : ∀ p ∈ ps, p.x = x) : voronoi (fuel + 1) ps = some (.error .zeroDivision) := by
  unfold voronoi
  rw [if_pos h4]
  have hl := siteList_length ps
  cases hps : ps with
  | nil => rw [hps] at h4; simp at h4
  | cons p rest =>
    cases hs : siteList (p :: rest) with
    | nil => rw [hps, hs] at hl; simp at hl
    | cons bottom sites =>
      cases sites with
      | nil => rw [hps, hs] at hl; rw [hps] at h4; simp only [List.length_cons, List.length_nil] at hl h4; omega
      | cons q sites =>
        dsimp only
        rw [hps] at hx
        have hx0 : p.x = x := hx p (by simp)
        have hscale : (envOf p rest bottom).hashscale = 0 := by
          unfold envOf
          dsimp only
          rw [foldl_const _ _ _ (fun q hq => ?_), foldl_const _ _ _ (fun q hq => ?_)]
          · simp
          · rw [hx q hq, hx0]; simp [pmin]
          · rw [hx q hq, hx0]; simp [pmax]
        unfold sweep turn
        rw [if_pos (show (State.init (envOf p rest bottom).hashsize : State ℝ).count = 0 from rfl)]
        unfold turnIdle
        dsimp only
        have : State.siteEvent (envOf p rest bottom) q (State.init (envOf p rest bottom).hashsize) = .error .zeroDivision := by
          unfold State.siteEvent
          rw [hscale]
          simp [pdiv, bind, Except.bind]
        rw [this]
        rfl

/-- A part of **C144** that fails: up to four points have no diagram. -/
theorem C144_refuted_few (fuel : Nat) (ps : List (P ℝ)) (h4 : ps.length ≤ 4) : ∃ s, voronoi fuel ps = some (.ok s) ∧ s.out = [] ∧ s.vertices = [] := by
  refine ⟨State.init 0, ?_, rfl, rfl⟩
  unfold voronoi
  rw [if_neg (by omega)]

/-- **C145**, jiggled points: each coordinate is moved by at least `1e-8` and at most `1e-7` of its size; with `C145_refuted_jiggle` for a coordinate 0. -/
theorem C145_jiggle_partial (sign rx ry : ℝ) (hs : sign = 1 ∨ sign = -1) (hrx : 0 ≤ rx ∧ rx ≤ 1) (hry : 0 ≤ ry ∧ ry ≤ 1) (p : P ℝ) :
    |p.x| / 10 ^ 8 ≤ |(jiggle sign rx ry p).x - p.x| ∧ |(jiggle sign rx ry p).x - p.x| ≤ |p.x| / 10 ^ 7 ∧
    |p.y| / 10 ^ 8 ≤ |(jiggle sign rx ry p).y - p.y| ∧ |(jiggle sign rx ry p).y - p.y| ≤ |p.y| / 10 ^ 7 := by
  have key : ∀ r x : ℝ, 0 ≤ r ∧ r ≤ 1 → |x| / 10 ^ 8 ≤ |jiggle1 sign r x - x| ∧ |jiggle1 sign r x - x| ≤ |x| / 10 ^ 7 := by
    intro r x hr
    have hx := abs_nonneg x
    have e : jiggle1 sign r x - x = (|x| / 10 ^ 8 + 9 * |x| / 10 ^ 8 * r) * sign := by
      unfold jiggle1
      simp only [real_add, real_mul, real_sub, real_ofInt, real_abs]
      have : (lit 1 9 : ℝ) = 1 / 10 ^ 9 := by show ((1 : ℤ) : ℝ) / 10 ^ 9 = _; norm_num
      rw [this]
      push_cast
      ring
    have hnn : 0 ≤ |x| / 10 ^ 8 + 9 * |x| / 10 ^ 8 * r := by have := mul_nonneg hx hr.1; nlinarith
    have h1 : |jiggle1 sign r x - x| = |x| / 10 ^ 8 + 9 * |x| / 10 ^ 8 * r := by
      rw [e, abs_mul]
      rcases hs with rfl | rfl <;> simp [abs_of_nonneg hnn]
    rw [h1]
    have := mul_nonneg hx hr.1
    have := mul_le_mul_of_nonneg_left hr.2 hx
    constructor <;> linarith
  exact ⟨(key rx p.x hrx).1, (key rx p.x hrx).2, (key ry p.y hry).1, (key ry p.y hry).2⟩

/-- A part of **C145** that fails: jiggling does not move a coordinate that is 0, so that points on the y axis raise `ZeroDivisionError` even if they are jiggled. -/
theorem C145_refuted_jiggle (fuel : Nat) (ps : List (P ℝ)) (h4 : 4 < ps.length) (hx : ∀ p ∈ ps, p.x = 0) (sign rx ry : P ℝ → ℝ) :
    voronoi (fuel + 1) (ps.map fun p => jiggle (sign p) (rx p) (ry p) p) = some (.error .zeroDivision) := by
  refine C144_refuted_column fuel _ (by simpa using h4) 0 ?_
  intro p hp
  obtain ⟨q, hq, rfl⟩ := List.mem_map.1 hp
  simp [jiggle, jiggle1, hx q hq]

/-- Parts of **C144** and **C145** that fail: the edges between points in a row are all listed twice; two lowest points that coincide raise `ZeroDivisionError`; and `p3` of a triangle is its second
corner. -/
theorem C145_refuted :
    edgePairs 15 [⟨0, 0⟩, ⟨1, 0⟩, ⟨2, 0⟩, ⟨3, 0⟩, ⟨4, 0⟩] = [(0, 1, 0), (1, 2, 0), (2, 3, 0), (3, 4, 0), (3, 4, 0), (2, 3, 0), (1, 2, 0), (0, 1, 0)] ∧
    succeeds 15 [⟨0, 0⟩, ⟨0, 0⟩, ⟨2, 1⟩, ⟨3, 2⟩, ⟨4, 0⟩] = false ∧
    ∀ t : Site ℝ × Site ℝ × Site ℝ, t.2.1 ≠ t.2.2 → triP3 t ≠ t.2.2 := by
  refine ⟨by decide +kernel, by decide +kernel, fun t h => h⟩

/-- The number of vertices. -/
def vertexCount (fuel : Nat) (ps : List (P ℚ)) : Nat :=
  match voronoi fuel ps with
  | some (.ok s) => s.vertices.length
  | _ => 0

/-- A case with four vertices and eight edges; the theorems apply to it. -/
example : ∃ s : State ℚ, voronoi 15 [⟨0, 0⟩, ⟨4, 1⟩, ⟨1, 5⟩, ⟨6, 6⟩, ⟨3, 3⟩] = some (.ok s) ∧ s.vertices.length = 4 := by
  have h : vertexCount 15 [⟨0, 0⟩, ⟨4, 1⟩, ⟨1, 5⟩, ⟨6, 6⟩, ⟨3, 3⟩] = 4 := by decide +kernel
  unfold vertexCount at h
  split at h
  · rename_i s hs
    exact ⟨s, hs, h⟩
  · omega

/-- A case with vertices. -/
example : edgePairs 15 [⟨0, 0⟩, ⟨4, 1⟩, ⟨1, 5⟩, ⟨6, 6⟩, ⟨3, 3⟩] = [(0, 4, 2), (1, 4, 2), (4, 2, 2), (4, 3, 2), (0, 2, 1), (2, 3, 1), (1, 3, 1), (0, 1, 1)] := by
  decide +kernel

end Verif.Voronoi
