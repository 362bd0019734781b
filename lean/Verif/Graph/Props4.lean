import Verif.Graph.Props3

/-!
# C141: the boundary of a graph; C142: longest paths; C143: polygons as edges
-/

set_option linter.unusedSectionVars false

namespace Verif.Graph
open Verif

variable {V : Type} [DecidableEq V]

/-! ## C141: the boundary -/

theorem before_head {l : List V} {x : V} (hx : x ∈ l) {y : V} (hy : before l x = some y) :
    ((l.take (l.idxOf x)).reverse ++ (l.drop (l.idxOf x)).reverse).head? = some y := by
  have hi : l.idxOf x < l.length := List.idxOf_lt_length_iff.2 hx
  unfold before at hy
  rw [if_pos hx] at hy
  generalize l.idxOf x = i at *
  cases i with
  | zero =>
    rw [Nat.zero_add, Nat.mod_eq_of_lt (by omega)] at hy
    simp only [List.take_zero, List.reverse_nil, List.nil_append, List.drop_zero, List.head?_reverse]
    rw [List.getLast?_eq_getElem?, hy]
  | succ i =>
    have e : i + 1 + l.length - 1 = i + l.length := by omega
    rw [e, Nat.add_mod_right, Nat.mod_eq_of_lt (by omega)] at hy
    rw [List.head?_append, List.head?_reverse, List.getLast?_take]
    simp [hy]

theorem ccwEdgeNode_spec {g : G V} (h : g.WF) (hd : NoDeadEnds g) {p c : V} (he : g.HasEdge p c) :
    ∃ n, ccwEdgeNode g c p = .ok n ∧ before (g.adj c) p = some n ∧ g.HasEdge c n := by
  obtain ⟨n, h1, h2, -, -⟩ := next_side h hd he
  refine ⟨n, ?_, h1, h2⟩
  have hp := (hasEdge_left h he.symm).2
  have hh := before_head hp h1
  have hn := hd n (hasEdge_left h h2.symm).1
  unfold ccwEdgeNode
  rw [if_pos hp]
  cases hl : ((g.adj c).take ((g.adj c).idxOf p)).reverse ++ ((g.adj c).drop ((g.adj c).idxOf p)).reverse with
  | nil => rw [hl] at hh; simp at hh
  | cons v l =>
    rw [hl] at hh
    simp only [List.head?_cons, Option.some.injEq] at hh
    subst hh
    unfold skipSpikes
    rw [if_neg (by omega)]

theorem boundaryWalk_spec {g : G V} (h : g.WF) (hd : NoDeadEnds g) (s : V) (n : Nat) : ∀ (p c : V), g.HasEdge p c →
    ∃ rest, boundaryWalk g s n p c = .ok rest ∧ Turning g p c rest ∧ (c :: rest).IsChain g.HasEdge ∧
      ((rest.getLast? = some s ∧ s ∉ rest.dropLast ∧ rest.length ≤ n) ∨ (s ∉ rest ∧ rest.length = n)) := by
  induction n with
  | zero => intro p c _; exact ⟨[], rfl, trivial, by simp, Or.inr (by simp)⟩
  | succ n ih =>
    intro p c he
    obtain ⟨x, h1, h2, h3⟩ := ccwEdgeNode_spec h hd he
    have hdx := hd x (hasEdge_left h h3.symm).1
    unfold boundaryWalk
    rw [h1]
    by_cases hx : x = s
    · subst hx
      refine ⟨[x], ?_, ⟨h2, trivial⟩, by simpa using h3, Or.inl (by simp)⟩
      simp only [bind, Except.bind, pure, Except.pure, if_pos, if_pos (show 1 < (g.adj x).length by omega)]
    · obtain ⟨rest, g1, g2, g3, g4⟩ := ih c x h3
      refine ⟨x :: rest, ?_, ⟨h2, g2⟩, ?_, ?_⟩
      · simp only [bind, Except.bind, pure, Except.pure, if_neg hx, g1, if_pos (show 1 < (g.adj x).length by omega)]
      · rw [List.isChain_cons_cons]; exact ⟨h3, g3⟩
      · rcases g4 with ⟨k1, k2, k3⟩ | ⟨k1, k2⟩
        · refine Or.inl ⟨?_, ?_, by simpa using k3⟩
          · rw [List.getLast?_cons, k1]; rfl
          · rw [List.dropLast_cons_of_ne_nil (by rintro rfl; simp at k1)]
            simp only [List.mem_cons, not_or]
            exact ⟨fun e => hx e.symm, k2⟩
        · refine Or.inr ⟨?_, by simp [k2]⟩
          simp only [List.mem_cons, not_or]
          exact ⟨fun e => hx e.symm, k1⟩

/-- **C141 (graphs without dead ends, the walk).**  `boundary_polygon` starts at the bottom node, leaves it by the last of its edges (the one furthest
counter-clockwise from the x axis), takes the leftmost way on at every node, and ends at its first return to the bottom node or after as many steps as the
graph has nodes. -/
theorem C141_boundary_partial (env : GEnv V) {g : G V} (h : g.WF) (hd : NoDeadEnds g) {v : V} (hb : g.bottom = .node v) (hv : v ∈ g.keys) :
    ∃ rest, boundaryPolygon env g = .ok (v :: rest) ∧ rest.head? = ((g.query env).adj v).getLast? ∧ (v :: rest).IsChain g.HasEdge ∧
      (∀ l₁ a b c l₂, v :: rest = l₁ ++ a :: b :: c :: l₂ → JustBefore ((g.query env).adj b) a c) ∧
      ((rest.getLast? = some v ∧ v ∉ rest.dropLast ∧ rest.length ≤ g.keys.length) ∨ (v ∉ rest ∧ rest.length = g.keys.length)) := by
  obtain ⟨q1, q2, q4, q3⟩ := query_spec env g
  have hq := query_wf env h
  have hdq : NoDeadEnds (g.query env) := by
    intro v hv
    rw [(q3 v).length_eq]
    exact hd v (q1 ▸ hv)
  have hvq : v ∈ (g.query env).keys := q1.symm ▸ hv
  have hdv := hdq v hvq
  have hE : (g.query env).HasEdge = g.HasEdge := by funext a b; unfold G.HasEdge; rw [q2]
  unfold boundaryPolygon
  rw [q4, hb]
  dsimp only
  unfold buildBoundary
  cases ha : (g.query env).adj v with
  | nil => rw [ha] at hdv; simp at hdv
  | cons p l =>
    cases l with
    | nil => rw [ha] at hdv; simp at hdv
    | cons p' l =>
      dsimp only
      have hpe : (g.query env).HasEdge p v := (HasEdge.symm ((hq.adjacent v p).1 ⟨hvq, by rw [ha]; simp⟩))
      obtain ⟨rest, g1, g2, g3, g4⟩ := boundaryWalk_spec hq hdq v (g.query env).keys.length p v hpe
      have hpos : 0 < g.keys.length := List.length_pos_of_mem hv
      refine ⟨rest, ?_, ?_, hE ▸ g3, ?_, q1 ▸ g4⟩
      · rw [g1]; rfl
      · cases rest with
        | nil =>
          rw [q1] at g4
          simp at g4
          omega
        | cons x rest =>
          have := g2.1
          rw [ha] at this
          unfold before at this
          rw [if_pos (by simp)] at this
          simp only [List.idxOf_cons_self, Nat.zero_add] at this
          rw [Nat.mod_eq_of_lt (by simp)] at this
          rw [List.getLast?_eq_getElem?, this]
          rfl
      · intro l₁ a b c l₂ e
        exact turning_justBefore hq hdq rest p v hpe g2 (p :: l₁) a b c l₂ (by rw [e]; rfl)

/-- Specification: `v` is a node, and no node is below it. -/
def IsBottom (g : G V) (y : V → ℚ) (v : V) : Prop := v ∈ g.keys ∧ ∀ w ∈ g.keys, y v ≤ y w

/-- Specification: the call is not `remove_edge`. -/
def Op.Grows : Op V → Prop
  | .remove _ => False
  | _ => True

theorem addEdge_bottom (env : GEnv V) (y : V → ℚ) (hy : ∀ a b, env.yLt a b = decide (y a < y b)) {g : G V} (h : g.WF)
    (hb : (g.bottom = .maxPoint ∧ g.keys = []) ∨ ∃ v, g.bottom = .node v ∧ IsBottom g y v) (a b : V) :
    ((g.addEdge env a b).1.bottom = .maxPoint ∧ (g.addEdge env a b).1.keys = []) ∨ ∃ v, (g.addEdge env a b).1.bottom = .node v ∧ IsBottom (g.addEdge env a b).1 y v := by
  unfold G.addEdge
  by_cases h1 : a = b
  · rw [if_pos h1]; exact hb
  rw [if_neg h1]
  by_cases h2 : memEdge (a, b) g.edges = true
  · rw [if_pos h2]; exact hb
  rw [if_neg h2]
  have hbot : (g.withEdge a b).bottom = g.bottom := by
    unfold G.withEdge G.link G.ensure
    split <;> split <;> rfl
  have hkeys : ∀ w, w ∈ (g.withEdge a b).keys ↔ w = a ∨ w = b ∨ w ∈ g.keys := by
    intro w
    unfold G.withEdge
    obtain ⟨n1, -, k1, -⟩ := ensure_spec ({ g with modified := true, edges := g.edges ++ [(a, b)] } : G V) a h.keysNodup
    obtain ⟨-, -, k2, -⟩ := ensure_spec (({ g with modified := true, edges := g.edges ++ [(a, b)] } : G V).ensure a) b n1
    unfold G.link
    dsimp only
    rw [k2, k1]
    tauto
  refine Or.inr ?_
  unfold G.settle
  rw [hbot]
  have fin : ∀ v, (v = a ∨ v = b ∨ v ∈ g.keys) → y v ≤ y a → y v ≤ y b → (∀ w ∈ g.keys, y v ≤ y w) →
      IsBottom ({ g.withEdge a b with bottom := .node v } : G V) y v := by
    intro v hv ha hb' hw
    refine ⟨(hkeys v).2 hv, ?_⟩
    intro w hw'
    rcases (hkeys w).1 hw' with rfl | rfl | hw'
    · exact ha
    · exact hb'
    · exact hw w hw'
  rcases hb with ⟨hb, hk⟩ | ⟨v, hb, hv1, hv2⟩
  · rw [hb]
    by_cases hlt : y b < y a
    · refine ⟨b, by simp [lowerBottom, hy, hlt], ?_⟩
      have := fin b (by simp) hlt.le le_rfl (by simp [hk])
      simpa [lowerBottom, hy, hlt] using this
    · refine ⟨a, by simp [lowerBottom, hy, hlt], ?_⟩
      have := fin a (by simp) le_rfl (not_lt.1 hlt) (by simp [hk])
      simpa [lowerBottom, hy, hlt] using this
  · rw [hb]
    by_cases hav : y a < y v
    · by_cases hlt : y b < y a
      · refine ⟨b, by simp [lowerBottom, hy, hlt, hav], ?_⟩
        have := fin b (by simp) hlt.le le_rfl (fun w hw => (hlt.trans hav).le.trans (hv2 w hw))
        simpa [lowerBottom, hy, hlt, hav] using this
      · refine ⟨a, by simp [lowerBottom, hy, hlt, hav], ?_⟩
        have := fin a (by simp) le_rfl (not_lt.1 hlt) (fun w hw => hav.le.trans (hv2 w hw))
        simpa [lowerBottom, hy, hlt, hav] using this
    · by_cases hlt : y b < y v
      · refine ⟨b, by simp [lowerBottom, hy, hlt, hav], ?_⟩
        have := fin b (by simp) (hlt.le.trans (not_lt.1 hav)) le_rfl (fun w hw => hlt.le.trans (hv2 w hw))
        simpa [lowerBottom, hy, hlt, hav] using this
      · refine ⟨v, by simp [lowerBottom, hy, hlt, hav], ?_⟩
        have := fin v (by simp [hv1]) (not_lt.1 hav) (not_lt.1 hlt) hv2
        simpa [lowerBottom, hy, hlt, hav] using this

/-- **C141 (the bottom node).**  As long as edges are only added, in whatever order and however often the graph is queried in between, the node `boundary_polygon` starts from is
a lowest node of the graph. -/
theorem C141_bottom_partial (env : GEnv V) (y : V → ℚ) (hy : ∀ a b, env.yLt a b = decide (y a < y b)) (ops : List (Op V)) (hops : ∀ op ∈ ops, op.Grows)
    (hne : (G.empty.run env ops).keys ≠ []) : ∃ v, (G.empty.run env ops).bottom = .node v ∧ IsBottom (G.empty.run env ops) y v := by
  have key : ∀ g : G V, g.WF → ((g.bottom = .maxPoint ∧ g.keys = []) ∨ ∃ v, g.bottom = .node v ∧ IsBottom g y v) →
      (((g.run env ops).bottom = .maxPoint ∧ (g.run env ops).keys = []) ∨ ∃ v, (g.run env ops).bottom = .node v ∧ IsBottom (g.run env ops) y v) := by
    clear hne
    induction ops with
    | nil => intro g _ h; exact h
    | cons op ops ih =>
      intro g hw hb
      refine ih (fun o ho => hops o (List.mem_cons_of_mem _ ho)) (g.step env op).1 (step_spec env hw op).1 ?_
      have hop := hops op (by simp)
      cases op with
      | add a b => exact addEdge_bottom env y hy hw hb a b
      | remove e => exact hop.elim
      | query =>
        obtain ⟨q1, q2, q4, q3⟩ := query_spec env g
        show ((g.query env).bottom = _ ∧ (g.query env).keys = _) ∨ ∃ v, (g.query env).bottom = _ ∧ IsBottom (g.query env) y v
        unfold IsBottom
        rw [q1, q4]
        exact hb
  rcases key G.empty empty_wf (Or.inl ⟨rfl, rfl⟩) with ⟨-, h⟩ | h
  · exact absurd h hne
  · exact h

/-- The hypotheses of both parts hold for a square with a diagonal; its boundary is the square. -/
example : halvedSquare.WF ∧ NoDeadEnds halvedSquare ∧ halvedSquare.bottom = .node (0, 0) ∧ (0, 0) ∈ halvedSquare.keys ∧
    boundaryPolygon envZ halvedSquare = .ok [(0, 0), (0, 4), (4, 4), (4, 0), (0, 0)] := by
  refine ⟨(C65_history envZ _).1, ?_, by decide +kernel, by decide +kernel, by decide +kernel⟩
  unfold NoDeadEnds
  decide +kernel

/-- Two triangles that touch at their lowest node. -/
def butterfly : G (ℤ × ℤ) :=
  graphOf [((0, 0), (2, 1)), ((2, 1), (1, 2)), ((1, 2), (0, 0)), ((0, 0), (-2, 1)), ((-2, 1), (-1, 2)), ((-1, 2), (0, 0))]

/-- **C141, refuted (a part missed).**  When two triangles touch at the lowest node, only one of them is in the boundary. -/
theorem C141_refuted_touching : butterfly.WF ∧ NoDeadEnds butterfly ∧ butterfly.bottom = .node (0, 0) ∧
    boundaryPolygon envZ butterfly = .ok [(0, 0), (-2, 1), (-1, 2), (0, 0)] := by
  refine ⟨(C65_history envZ _).1, ?_, by decide +kernel, by decide +kernel⟩
  unfold NoDeadEnds
  decide +kernel

/-- Four triangles one on top of the other, each touching the next at one node. -/
def tower : G (ℤ × ℤ) :=
  graphOf [((0, 0), (1, 1)), ((1, 1), (0, 2)), ((0, 2), (0, 0)), ((0, 2), (1, 3)), ((1, 3), (0, 4)), ((0, 4), (0, 2)),
    ((0, 4), (1, 5)), ((1, 5), (0, 6)), ((0, 6), (0, 4)), ((0, 6), (1, 7)), ((1, 7), (0, 8)), ((0, 8), (0, 6))]

/-- **C141, refuted (cut short).**  The boundary of a tower of four triangles has 12 sides; the polygon stops after 9, the number of nodes, at the third one from the top on the way
down, and does not come to `(1, 1)`, which is on the boundary. -/
theorem C141_refuted_short : tower.WF ∧ NoDeadEnds tower ∧ boundaryPolygon envZ tower =
    .ok [(0, 0), (0, 2), (0, 4), (0, 6), (0, 8), (1, 7), (0, 6), (1, 5), (0, 4), (1, 3)] ∧ (1, 1) ∈ tower.keys := by
  refine ⟨(C65_history envZ _).1, ?_, by decide +kernel, by decide +kernel⟩
  unfold NoDeadEnds
  decide +kernel

/-- A triangle on a stick of two edges. -/
def lollipop : G (ℤ × ℤ) := graphOf [((0, 0), (0, 1)), ((0, 1), (0, 2)), ((0, 2), (1, 3)), ((1, 3), (-1, 3)), ((-1, 3), (0, 2))]

/-- **C141, refuted (exception).**  When the lowest node is the end of a chain, `boundary_polygon` raises `TypeError`. -/
theorem C141_refuted_chain : lollipop.WF ∧ boundaryPolygon envZ lollipop = .error .typeError :=
  ⟨(C65_history envZ _).1, by decide +kernel⟩

/-- **C141, refuted (removed edges).**  After the edges of the lowest node have been removed, the node is still taken as the start, and `boundary_polygon` raises
`IndexError`, although a triangle is left. -/
theorem C141_refuted_removed : ∃ ops : List (Op (ℤ × ℤ)), (G.empty.run envZ ops).WF ∧ NoDeadEnds (G.empty.run envZ ops) ∧ (G.empty.run envZ ops).edges.length = 3 ∧
    boundaryPolygon envZ (G.empty.run envZ ops) = .error .indexError := by
  refine ⟨[.add (0, 1) (1, 2), .add (1, 2) (0, 3), .add (0, 3) (0, 1), .add (0, 0) (0, 1), .remove ((0, 0), (0, 1))], (C65_history envZ _).1, ?_,
    by decide +kernel, by decide +kernel⟩
  unfold NoDeadEnds
  decide +kernel

/-- **C141, refuted (nothing there).**  The boundary of a graph without edges is not the empty polygon: `boundary_polygon` raises `IndexError` for a new graph, and
`AttributeError` after `cull_open_edges` has removed everything. -/
theorem C141_refuted_empty (env : GEnv V) : boundaryPolygon env (G.empty : G V) = .error .indexError ∧
    ∀ (iter : Nat → List (V × V) → List (V × V)) (korder : List V → List V), (∀ l, (korder l).Perm l) → ∀ (fuel : Nat) (g g' : G V),
      g.cull env iter korder fuel = some (.ok g') → g'.keys = [] → boundaryPolygon env g' = .error .attributeError := by
  refine ⟨rfl, fun iter korder hk fuel g g' h h0 => ?_⟩
  have hb : g'.bottom = .none := by
    unfold G.cull at h
    cases hc : g.cullLoop iter fuel 0 with
    | none => rw [hc] at h; cases h
    | some r =>
      rw [hc] at h
      cases r with
      | error e => cases h
      | ok x =>
        simp only [Option.map_some, Except.map, Option.some.injEq, Except.ok.injEq] at h
        subst h
        have : korder x.keys = [] := by
          have := hk x.keys
          rw [show x.keys = [] from h0] at this ⊢
          exact this.eq_nil
        simp only [this]
        rfl
  have : (g'.query env).bottom = .none := by
    unfold G.query
    split <;> exact hb
  unfold boundaryPolygon
  rw [this]

/-- A path of two edges is culled away. -/
example : ((graphOf [((0, 0), (0, 1)), ((0, 1), (1, 1))] : G (ℤ × ℤ)).cull envZ (fun _ l => l) id 5).map (fun r => r.toOption.map fun g => (g.keys, g.edges)) = some (some ([], [])) := by
  decide +kernel

/-! ## C142: longest paths -/

/-- Specification: a path along edges of the graph, none of them twice. -/
def IsTrail (g : G V) (p : List V) : Prop := p.IsChain g.HasEdge ∧ (pathEdges p).Nodup ∧ 2 ≤ p.length

theorem pathsFromAll_spec (env : GEnv V) {g : G V} (h : g.WF) (s : Strategy) (rnd : Nat → Nat → Nat → Nat) : ∀ (order : List (V × V)) (n : Nat),
    (∀ e ∈ order, g.HasEdge e.1 e.2) →
    ∃ ps, pathsFromAll env g s rnd n order = some (.ok ps) ∧ List.Forall₂ (fun e p => und e ∈ pathEdges p ∧ IsTrail g p) order ps := by
  intro order
  induction order with
  | nil => intro n _; exact ⟨[], rfl, .nil⟩
  | cons e order ih =>
    intro n ho
    obtain ⟨p, vis, h1, h2, h3, h4, h5, -⟩ := buildPath_spec env h s (rnd n) [] e (ho e (by simp)) (by simp)
    obtain ⟨ps, g1, g2⟩ := ih (n + 1) (fun e he => ho e (List.mem_cons_of_mem _ he))
    unfold pathsFromAll
    rw [h1]
    dsimp only
    rw [g1]
    exact ⟨p :: ps, rfl, .cons ⟨h4, isChain_of_pathEdges p (fun f hf => (h5 f hf).1), h3, h2⟩ g2⟩

theorem dedupeLoop_sublist : ∀ (ps : List (List V)) (prev : List V), (dedupeLoop prev ps).Sublist ps := by
  intro ps
  induction ps with
  | nil => intro _; exact List.Sublist.refl _
  | cons p ps ih =>
    intro prev
    unfold dedupeLoop
    split
    · exact (ih p).cons_cons p
    · exact (ih p).cons p

theorem forall₂_right {α β : Type} {R : α → β → Prop} {l : List α} {m : List β} (h : List.Forall₂ R l m) : ∀ b ∈ m, ∃ a, R a b := by
  induction h with
  | nil => simp
  | cons hab _ ih =>
    intro b hb
    rcases List.mem_cons.1 hb with rfl | hb
    · exact ⟨_, hab⟩
    · exact ih b hb

/-- **C142 (what is returned).**  For every graph with an edge, every order of the edges, every strategy and every outcome of the random choices `build_longest_paths` returns at
least one path; every path goes along edges of the graph without repeating one; the paths are sorted by length, longest first, and no path found from any
edge (there is one through each) is longer than the first. -/
theorem C142_longest_partial (env : GEnv V) {g : G V} (h : g.WF) (s : Strategy) (rnd : Nat → Nat → Nat → Nat) (order : List (V × V)) (ho : order.Perm g.edges)
    (hne : g.edges ≠ []) :
    ∃ all ps, List.Forall₂ (fun e p => und e ∈ pathEdges p ∧ IsTrail g p) order all ∧ longestPaths env g s rnd order = some (.ok ps) ∧ ps ≠ [] ∧
      (∀ p ∈ ps, p ∈ all ∧ IsTrail g p) ∧ (ps.Pairwise fun p q => q.length ≤ p.length) ∧ ∀ p ∈ all, ∀ q ∈ ps.head?, p.length ≤ q.length := by
  obtain ⟨all, h1, h2⟩ := pathsFromAll_spec env h s rnd order 0 (fun e he => Or.inl (ho.mem_iff.1 he))
  have hp := sortBy_perm (fun a b : List V => decide (b.length < a.length)) all
  have hsort := sortBy_length_sorted all
  have hlen : all.length = order.length := h2.length_eq.symm
  unfold longestPaths
  rw [h1]
  cases hs : sortBy (fun a b : List V => decide (b.length < a.length)) all with
  | nil =>
    exfalso
    rw [hs] at hp
    have := hp.length_eq
    simp only [List.length_nil] at this
    rw [hlen, ho.length_eq] at this
    exact hne (List.length_eq_zero_iff.1 this.symm)
  | cons p ps =>
    rw [hs] at hp hsort
    have hsub : (p :: dedupeLoop p ps).Sublist (p :: ps) := (dedupeLoop_sublist ps p).cons_cons p
    have htr : ∀ q ∈ all, IsTrail g q := by
      intro q hq
      obtain ⟨e, he⟩ := forall₂_right h2 q hq
      exact he.2
    refine ⟨all, p :: dedupeLoop p ps, h2, ?_, by simp, ?_, hsort.sublist hsub, ?_⟩
    · simp only [Option.map_some, Except.bind, hs, dedupePaths]
    · intro q hq
      have := hp.mem_iff.1 (hsub.subset hq)
      exact ⟨this, htr q this⟩
    · intro q hq r hr
      simp only [List.head?_cons, Option.mem_some_iff] at hr
      subst hr
      rcases List.mem_cons.1 (hp.mem_iff.2 hq) with rfl | hq'
      · exact le_rfl
      · exact (List.pairwise_cons.1 hsort).1 q hq'

/-- **C142, refuted (no edges).** `build_longest_paths` of a graph without edges raises `IndexError`. -/
theorem C142_refuted_empty (env : GEnv V) (g : G V) (s : Strategy) (rnd : Nat → Nat → Nat → Nat) : longestPaths env g s rnd [] = some (.error .indexError) := rfl

/-- Two separate paths of four nodes. -/
def twoPaths : G Nat := G.run envN G.empty [.add 1 2, .add 5 6, .add 2 3, .add 6 7, .add 3 4, .add 7 8]

/-- **C142, refuted (duplicates).**  Similar paths are only dropped when they come one after the other: with two separate paths of equal length each is returned three times, once
for each of its edges. -/
theorem C142_refuted_duplicates : twoPaths.WF ∧ longestPaths envN twoPaths .straightest (fun _ _ _ => 0) twoPaths.edges =
    some (.ok [[1, 2, 3, 4], [5, 6, 7, 8], [4, 3, 2, 1], [8, 7, 6, 5], [4, 3, 2, 1], [8, 7, 6, 5]]) :=
  ⟨(C65_history envN _).1, by decide +kernel⟩

/-! ## C143: adding a polygon -/

theorem addEdge_bottom_ne (env : GEnv V) (g : G V) (a b : V) (hb : g.bottom ≠ .none) : (g.addEdge env a b).1.bottom ≠ .none := by
  unfold G.addEdge
  by_cases h1 : a = b
  · rw [if_pos h1]; exact hb
  rw [if_neg h1]
  by_cases h2 : memEdge (a, b) g.edges = true
  · rw [if_pos h2]; exact hb
  rw [if_neg h2]
  have hbot : (g.withEdge a b).bottom = g.bottom := by
    unfold G.withEdge G.link G.ensure
    split <;> split <;> rfl
  unfold G.settle
  rw [hbot]
  cases h : g.bottom with
  | none => exact absurd h hb
  | maxPoint => simp only [lowerBottom]; split <;> simp
  | node v =>
    simp only [lowerBottom]
    by_cases hv : env.yLt a v = true
    · simp only [if_pos hv]; split <;> simp
    · simp only [if_neg hv]; split <;> simp

theorem addEdge_ok (env : GEnv V) {g : G V} (h : g.WF) (hb : g.bottom ≠ .none) (a b : V) :
    ∃ g', g.addEdge env a b = (g', none) ∧ g'.WF ∧ g'.bottom ≠ .none ∧ ∀ x y, g'.HasEdge x y ↔ g.HasEdge x y ∨ (a ≠ b ∧ IsEdge (a, b) x y) := by
  have h1 : (g.addEdge env a b).2 = none := (C65_exceptions env h).2 hb a b
  obtain ⟨h2, h3⟩ := step_spec env h (.add a b)
  exact ⟨(g.addEdge env a b).1, Prod.ext rfl h1, h2, addEdge_bottom_ne env g a b hb, h3⟩

theorem addSides_spec (env : GEnv V) : ∀ (l : List V) (a : V) (g : G V), g.WF → g.bottom ≠ .none →
    ∃ g', addSides env g a l = (g', none) ∧ g'.WF ∧ g'.bottom ≠ .none ∧
      ∀ x y, g'.HasEdge x y ↔ g.HasEdge x y ∨ (x ≠ y ∧ ((x, y) ∈ steps (a :: l) ∨ (y, x) ∈ steps (a :: l))) := by
  intro l
  induction l with
  | nil => intro a g h hb; exact ⟨g, rfl, h, hb, by simp [steps]⟩
  | cons b l ih =>
    intro a g h hb
    obtain ⟨g1, h1, h2, h3, h4⟩ := addEdge_ok env h hb a b
    obtain ⟨g2, k1, k2, k3, k4⟩ := ih b g1 h2 h3
    refine ⟨g2, ?_, k2, k3, ?_⟩
    · unfold addSides
      rw [h1]
      exact k1
    · intro x y
      rw [k4, h4]
      simp only [steps, List.mem_cons, IsEdge, Prod.mk.injEq]
      constructor
      · rintro ((h | ⟨hab, ⟨rfl, rfl⟩ | ⟨rfl, rfl⟩⟩) | h)
        · exact Or.inl h
        · exact Or.inr ⟨hab, by simp⟩
        · exact Or.inr ⟨fun e => hab e.symm, by simp⟩
        · tauto
      · rintro (h | ⟨hxy, (⟨rfl, rfl⟩ | h) | (⟨rfl, rfl⟩ | h)⟩)
        · exact Or.inl (Or.inl h)
        · exact Or.inl (Or.inr ⟨hxy, Or.inl ⟨rfl, rfl⟩⟩)
        · exact Or.inr ⟨hxy, Or.inl h⟩
        · exact Or.inl (Or.inr ⟨fun e => hxy e.symm, Or.inr ⟨rfl, rfl⟩⟩)
        · exact Or.inr ⟨hxy, Or.inr h⟩

/-- Specification: the sides of a polyline, and the closing one of a polygon. -/
def sidesOfPoly (closed : Bool) (vs : List V) : List (V × V) := if closed then steps (vs ++ vs.take 1) else steps vs

theorem steps_concat : ∀ (l : List V) (a b : V), steps (a :: l ++ [b]) = steps (a :: l) ++ [((a :: l).getLastD a, b)] := by
  intro l
  induction l with
  | nil => intro a b; rfl
  | cons c l ih =>
    intro a b
    have := ih c b
    simp only [List.cons_append, steps] at this ⊢
    rw [this]
    cases l <;> simp [List.getLast?_cons]

/-- **C143 (some vertex).**  `add_poly` of at least one vertex on a graph that was never culled raises nothing, and the edges afterwards are those there were and the
sides of the polygon (without the closing one if it is not asked for), apart from sides from a vertex to itself; the graph stays well-formed. -/
theorem C143_add_poly_partial (env : GEnv V) {g : G V} (h : g.WF) (hb : g.bottom ≠ .none) (closePoly : Bool) (vs : List V) (hne : vs ≠ []) :
    ∃ g', addPoly env g closePoly vs = (g', none) ∧ g'.WF ∧
      ∀ x y, g'.HasEdge x y ↔ g.HasEdge x y ∨ (x ≠ y ∧ ((x, y) ∈ sidesOfPoly closePoly vs ∨ (y, x) ∈ sidesOfPoly closePoly vs)) := by
  cases vs with
  | nil => exact absurd rfl hne
  | cons a l =>
    obtain ⟨g1, h1, h2, h3, h4⟩ := addSides_spec env l a g h hb
    unfold addPoly
    dsimp only
    rw [h1]
    dsimp only
    cases closePoly with
    | false => exact ⟨g1, by simp, h2, h4⟩
    | true =>
      have hst : sidesOfPoly true (a :: l) = steps (a :: l) ++ [((a :: l).getLastD a, a)] := by
        unfold sidesOfPoly
        rw [if_pos rfl]
        exact steps_concat l a a
      rw [hst]
      by_cases hal : a = (a :: l).getLastD a
      · refine ⟨g1, by rw [if_neg (by simpa using hal)], h2, ?_⟩
        intro x y
        rw [h4, ← hal]
        simp only [List.mem_append, List.mem_singleton, Prod.mk.injEq]
        constructor
        · tauto
        · rintro (h | ⟨hxy, (h | ⟨rfl, rfl⟩) | (h | ⟨rfl, rfl⟩)⟩)
          · exact Or.inl h
          · exact Or.inr ⟨hxy, Or.inl h⟩
          · exact absurd rfl hxy
          · exact Or.inr ⟨hxy, Or.inr h⟩
          · exact absurd rfl hxy
      · obtain ⟨g2, k1, k2, k3, k4⟩ := addEdge_ok env h2 h3 ((a :: l).getLastD a) a
        refine ⟨g2, by rw [if_pos ⟨rfl, hal⟩]; exact k1, k2, ?_⟩
        intro x y
        rw [k4, h4]
        simp only [List.mem_append, List.mem_singleton, Prod.mk.injEq, IsEdge]
        constructor
        · rintro ((h | ⟨hxy, h⟩) | ⟨hab, ⟨h1, h2⟩ | ⟨h1, h2⟩⟩)
          · exact Or.inl h
          · exact Or.inr ⟨hxy, by tauto⟩
          · exact Or.inr ⟨by rw [h1, h2]; exact hab, Or.inl (Or.inr ⟨h1, h2⟩)⟩
          · exact Or.inr ⟨by rw [h1, h2]; exact fun e => hab e.symm, Or.inr (Or.inr ⟨h2, h1⟩)⟩
        · rintro (h | ⟨hxy, (h | ⟨h1, h2⟩) | (h | ⟨h1, h2⟩)⟩)
          · exact Or.inl (Or.inl h)
          · exact Or.inl (Or.inr ⟨hxy, Or.inl h⟩)
          · exact Or.inr ⟨by rw [← h1, ← h2]; exact hxy, Or.inl ⟨h1, h2⟩⟩
          · exact Or.inl (Or.inr ⟨hxy, Or.inr h⟩)
          · exact Or.inr ⟨by rw [← h1, ← h2]; exact fun e => hxy e.symm, Or.inr ⟨h2, h1⟩⟩

/-- Non-vacuity: a triangle with a repeated vertex is added to a graph with one edge. -/
example : ((addPoly envN (G.run envN G.empty [.add 1 2]) true [2, 3, 3, 4]).1.edges, (addPoly envN (G.run envN G.empty [.add 1 2]) true [2, 3, 3, 4]).2) =
    ([(1, 2), (2, 3), (3, 4), (4, 2)], none) := by decide +kernel

/-- **C143, refuted (no vertices).**  `add_poly` of an empty list raises `IndexError`. -/
theorem C143_refuted_empty (env : GEnv V) (g : G V) (closePoly : Bool) : (addPoly env g closePoly []).2 = some .indexError := rfl

end Verif.Graph
