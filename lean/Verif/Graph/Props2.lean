import Verif.Graph.Props1
import Mathlib.Data.Sym.Sym2
import Mathlib.Data.List.Perm.Basic

/-!
# C67: `GraphPathBuilder.build_paths` covers the graph
-/

set_option linter.unusedSectionVars false

namespace Verif.Graph
open Verif

variable {V : Type} [DecidableEq V]

/-- Specification: the edges a path of vertices runs along, without direction. -/
def pathEdges : List V → List (Sym2 V)
  | [] => []
  | [_] => []
  | a :: b :: l => s(a, b) :: pathEdges (b :: l)

/-- Specification: an edge without its direction. -/
def und (e : V × V) : Sym2 V := s(e.1, e.2)

/-! ## Lemmas -/

theorem pathEdges_append (l : List V) (a : V) (r : List V) :
    pathEdges (l ++ a :: r) = pathEdges (l ++ [a]) ++ pathEdges (a :: r) := by
  induction l with
  | nil => rfl
  | cons x l ih =>
    cases l with
    | nil => rfl
    | cons y l =>
      show s(x, y) :: pathEdges (y :: l ++ a :: r) = s(x, y) :: pathEdges (y :: l ++ [a]) ++ _
      rw [ih]; rfl

theorem pathEdges_reverse (l : List V) : pathEdges l.reverse = (pathEdges l).reverse := by
  induction l with
  | nil => rfl
  | cons a l ih =>
    cases l with
    | nil => rfl
    | cons b l =>
      rw [List.reverse_cons, List.reverse_cons, List.append_assoc]
      show pathEdges (l.reverse ++ b :: [a]) = (s(a, b) :: pathEdges (b :: l)).reverse
      rw [pathEdges_append, ← List.reverse_cons, ih, List.reverse_cons]
      congr 1
      show [s(b, a)] = [s(a, b)]
      rw [Sym2.eq_swap]

theorem und_mem_iff (a b : V) (l : List (V × V)) : s(a, b) ∈ l.map und ↔ (a, b) ∈ l ∨ (b, a) ∈ l := by
  rw [List.mem_map]
  constructor
  · rintro ⟨⟨x, y⟩, he, h⟩
    rcases Sym2.eq_iff.1 h with ⟨h1, h2⟩ | ⟨h1, h2⟩ <;> dsimp only at h1 h2 <;> subst h1 <;> subst h2
    · exact Or.inl he
    · exact Or.inr he
  · rintro (h | h)
    · exact ⟨_, h, rfl⟩
    · exact ⟨_, h, Sym2.eq_swap⟩

theorem memEdge_und (e : V × V) (l : List (V × V)) : memEdge e l = true ↔ und e ∈ l.map und := by
  obtain ⟨a, b⟩ := e
  rw [memEdge_iff]; exact (und_mem_iff a b l).symm

theorem hasEdge_und (g : G V) (a b : V) : g.HasEdge a b ↔ s(a, b) ∈ g.edges.map und := (und_mem_iff a b _).symm

theorem isEdge_und (e : V × V) (a b : V) : IsEdge e a b ↔ und e = s(a, b) := by
  unfold IsEdge und
  rw [Sym2.eq_iff]
  constructor
  · rintro (⟨rfl, rfl⟩ | ⟨rfl, rfl⟩)
    · exact Or.inl ⟨rfl, rfl⟩
    · exact Or.inr ⟨rfl, rfl⟩
  · rintro (⟨rfl, rfl⟩ | ⟨rfl, rfl⟩)
    · exact Or.inl ⟨rfl, rfl⟩
    · exact Or.inr ⟨rfl, rfl⟩

theorem edges_nodup {g : G V} (h : g.WF) : (g.edges.map und).Nodup := by
  rw [List.Nodup, List.pairwise_map]
  refine h.distinct.imp ?_
  intro e f hne heq
  exact hne ((isEdge_und e f.1 f.2).2 heq)

theorem hasEdge_ne {g : G V} (h : g.WF) {a b : V} (he : g.HasEdge a b) : a ≠ b := by
  rcases he with h1 | h1
  · exact h.simple _ h1
  · exact fun e => h.simple _ h1 e.symm

theorem choice_ok {α : Type} (k : Nat) (l : List α) (hl : l ≠ []) : ∃ a ∈ l, choice k l = .ok a := by
  have hlt : k % l.length < l.length := Nat.mod_lt _ (List.length_pos_of_ne_nil hl)
  refine ⟨l[k % l.length], List.getElem_mem hlt, ?_⟩
  unfold choice
  rw [List.getElem?_eq_getElem hlt]

theorem choice_nil {α : Type} (k : Nat) : choice k ([] : List α) = .error .indexError := rfl

theorem pick_spec (s : Strategy) (k : Nat) (l : List V) :
    (l = [] ∧ pick s k l = .ok none) ∨ ∃ x ∈ l, pick s k l = .ok (some x) := by
  cases l with
  | nil => exact Or.inl ⟨rfl, rfl⟩
  | cons a tl =>
    refine Or.inr ?_
    cases s with
    | straightest => exact ⟨a, by simp, rfl⟩
    | squiggly =>
      refine ⟨(a :: tl).getLast (by simp), List.getLast_mem _, ?_⟩
      show Except.ok (a :: tl).getLast? = _
      rw [List.getLast?_eq_some_getLast (by simp)]
    | random =>
      obtain ⟨x, hx, h⟩ := choice_ok k (a :: tl) (by simp)
      exact ⟨x, hx, by unfold pick; simp only [h]; rfl⟩
    | random2 =>
      obtain ⟨x, hx, h⟩ := choice_ok k ((a :: a :: tl).take 3) (by simp)
      refine ⟨x, ?_, by unfold pick; simp only [h]; rfl⟩
      have := List.mem_of_mem_take hx
      rcases List.mem_cons.1 this with rfl | h
      · simp
      · exact h

theorem getExit_spec (env : GEnv V) {g : G V} (h : g.WF) (s : Strategy) (k : Nat) (vis : List (V × V)) {prev curr : V}
    (hp : g.HasEdge prev curr) :
    getExit env g s k vis prev curr = .ok none ∨ ∃ x, getExit env g s k vis prev curr = .ok (some x) ∧
      g.HasEdge curr x ∧ s(curr, x) ∉ vis.map und ∧ s(curr, x) ≠ s(prev, curr) := by
  unfold getExit
  split
  · exact Or.inl rfl
  · rcases pick_spec s k (sortBy (fun a b => env.straightLt prev curr b a) (exits g vis prev curr)) with ⟨-, h1⟩ | ⟨x, hx, h1⟩
    · exact Or.inl h1
    · refine Or.inr ⟨x, h1, ?_⟩
      have hx := (sortBy_perm _ _).mem_iff.1 hx
      unfold exits at hx
      rw [List.mem_filter] at hx
      obtain ⟨hadj, hc⟩ := hx
      simp only [Bool.and_eq_true, decide_eq_true_eq, Bool.not_eq_true'] at hc
      have hcurr := ((h.adjacent curr prev).2 (HasEdge.symm hp)).1
      refine ⟨(h.adjacent curr x).1 ⟨hcurr, hadj⟩, ?_, ?_⟩
      · have h2 := hc.2
        rw [← Bool.not_eq_true, memEdge_und] at h2
        exact h2
      · intro he
        rcases Sym2.eq_iff.1 he with ⟨h2, -⟩ | ⟨-, h2⟩
        · exact hasEdge_ne h hp h2.symm
        · exact hc.1 h2

/-- The number of edges not visited yet. -/
def freeCount (g : G V) (vis : List (V × V)) : Nat := (g.edges.filter fun e => !(memEdge e vis)).length

theorem freeCount_lt {g : G V} {vis : List (V × V)} {a b : V} (he : g.HasEdge a b) (hn : s(a, b) ∉ vis.map und) :
    freeCount g (vis ++ [(a, b)]) < freeCount g vis := by
  unfold freeCount
  have hsub : (g.edges.filter fun e => !(memEdge e (vis ++ [(a, b)]))) =
      ((g.edges.filter fun e => !(memEdge e vis)).filter fun e => !(sameEdge (a, b) e)) := by
    rw [List.filter_filter]
    apply List.filter_congr
    intro e _
    unfold memEdge
    rw [List.any_append, Bool.not_or, Bool.and_comm]
    congr 2
    rw [Bool.eq_iff_iff]
    simp only [List.any_cons, List.any_nil, Bool.or_false, sameEdge_iff, isEdge_und]
    exact ⟨fun h => h.symm, fun h => h.symm⟩
  rw [hsub]
  have hmem : ∃ e ∈ g.edges, und e = s(a, b) := by
    have := (hasEdge_und g a b).1 he
    obtain ⟨e, h1, h2⟩ := List.mem_map.1 this
    exact ⟨e, h1, h2⟩
  obtain ⟨e, h1, h2⟩ := hmem
  apply List.length_filter_lt_length_iff_exists.2
  refine ⟨e, ?_, ?_⟩
  · rw [List.mem_filter]
    refine ⟨h1, ?_⟩
    rw [Bool.not_eq_true', ← Bool.not_eq_true, memEdge_und, h2]; exact hn
  · rw [Bool.not_eq_true, Bool.not_eq_false', sameEdge_iff, isEdge_und]
    exact h2.symm

theorem walk_spec (env : GEnv V) {g : G V} (h : g.WF) (s : Strategy) (rnd : Nat → Nat) (fuel : Nat) :
    ∀ (n : Nat) (vis : List (V × V)) (prev curr : V), g.HasEdge prev curr → freeCount g (vis ++ [(prev, curr)]) < fuel →
    ∃ p vis', walk env g s rnd fuel n vis prev curr = some (.ok (curr :: p, vis')) ∧
      vis'.map und = vis.map und ++ pathEdges (prev :: curr :: p) ∧ (pathEdges (curr :: p)).Nodup ∧
      ∀ e ∈ pathEdges (curr :: p), e ∈ g.edges.map und ∧ e ∉ vis.map und ∧ e ≠ s(prev, curr) := by
  induction fuel with
  | zero => intro n vis prev curr _ hf; omega
  | succ fuel ih =>
    intro n vis prev curr hp hf
    unfold walk
    rcases getExit_spec env h s (rnd n) vis hp with h1 | ⟨x, h1, h2, h3, h4⟩
    · rw [h1]
      exact ⟨[], vis ++ [(prev, curr)], rfl, by simp [pathEdges, und], by simp [pathEdges], by simp [pathEdges]⟩
    · rw [h1]
      dsimp only
      have hnv : s(curr, x) ∉ (vis ++ [(prev, curr)]).map und := by
        rw [List.map_append, List.mem_append]
        rintro (h | h)
        · exact h3 h
        · simp only [List.map_cons, List.map_nil, List.mem_singleton] at h
          exact h4 h
      have hlt := freeCount_lt h2 hnv
      obtain ⟨p, vis', h5, h6, h7, h8⟩ := ih (n + 1) (vis ++ [(prev, curr)]) curr x h2 (by omega)
      rw [h5]
      refine ⟨x :: p, vis', rfl, ?_, ?_, ?_⟩
      · rw [h6]; simp [pathEdges, und]
      · show (s(curr, x) :: pathEdges (x :: p)).Nodup
        rw [List.nodup_cons]
        exact ⟨fun hm => (h8 _ hm).2.2 rfl, h7⟩
      · intro e he
        rcases List.mem_cons.1 (show e ∈ s(curr, x) :: pathEdges (x :: p) from he) with rfl | he
        · exact ⟨(hasEdge_und g curr x).1 h2, h3, h4⟩
        · obtain ⟨h9, h10, -⟩ := h8 e he
          rw [List.map_append, List.mem_append, not_or] at h10
          refine ⟨h9, h10.1, ?_⟩
          have := h10.2
          simpa [und] using this

theorem freeCount_le (g : G V) (vis : List (V × V)) : freeCount g vis ≤ g.edges.length := List.length_filter_le _ _

theorem buildPath_spec (env : GEnv V) {g : G V} (h : g.WF) (s : Strategy) (rnd : Nat → Nat → Nat) (vis : List (V × V))
    (e : V × V) (he : g.HasEdge e.1 e.2) (hn : und e ∉ vis.map und) :
    ∃ p vis', buildPath env g s rnd (g.edges.length + 1) vis e = some (.ok (p, vis')) ∧ 2 ≤ p.length ∧
      (pathEdges p).Nodup ∧ und e ∈ pathEdges p ∧ (∀ f ∈ pathEdges p, f ∈ g.edges.map und ∧ f ∉ vis.map und) ∧
      ∀ f, f ∈ vis'.map und ↔ f ∈ vis.map und ∨ f ∈ pathEdges p := by
  obtain ⟨a, b⟩ := e
  dsimp only at he
  have hka := ((h.adjacent a b).2 he).1
  have hkb := ((h.adjacent b a).2 (HasEdge.symm he)).1
  obtain ⟨p1, vis1, w1, v1, n1, m1⟩ := walk_spec env h s (rnd 0) (g.edges.length + 1) 0 vis a b he
    (Nat.lt_succ_of_le (freeCount_le _ _))
  obtain ⟨p2, vis2, w2, v2, n2, m2⟩ := walk_spec env h s (rnd 1) (g.edges.length + 1) 0 vis1 b a (HasEdge.symm he)
    (Nat.lt_succ_of_le (freeCount_le _ _))
  have hpe : pathEdges (a :: b :: p1) = s(a, b) :: pathEdges (b :: p1) := rfl
  -- the edges of the resulting path
  have hrun : buildPath env g s rnd (g.edges.length + 1) vis (a, b)
      = some (.ok (if 2 < (b :: a :: p2).length then (a :: b :: p1).reverse ++ (b :: a :: p2).drop 2 else a :: b :: p1, vis2)) := by
    unfold buildPath forward
    rw [if_pos ⟨hka, hkb⟩, w1]
    simp only [Option.map_some, Except.map]
    rw [w2]
    rfl
  have hperm : (pathEdges (if 2 < (b :: a :: p2).length then (a :: b :: p1).reverse ++ (b :: a :: p2).drop 2
      else a :: b :: p1)).Perm (pathEdges (a :: b :: p1) ++ pathEdges (a :: p2)) := by
    split
    · have e1 : (a :: b :: p1).reverse ++ (b :: a :: p2).drop 2 = (b :: p1).reverse ++ a :: p2 := by simp
      rw [e1, pathEdges_append, ← List.reverse_cons, pathEdges_reverse]
      exact (List.reverse_perm _).append_right _
    · rename_i hl
      have : p2 = [] := by
        cases p2 with
        | nil => rfl
        | cons x p2 => simp at hl
      rw [this]; simp [pathEdges]
  have hnod : (pathEdges (a :: b :: p1) ++ pathEdges (a :: p2)).Nodup := by
    rw [List.nodup_append]
    refine ⟨?_, n2, ?_⟩
    · rw [hpe, List.nodup_cons]
      exact ⟨fun hm => (m1 _ hm).2.2 rfl, n1⟩
    · intro x hx y hy
      rintro rfl
      have := (m2 x hy).2.1
      rw [v1, List.mem_append, not_or] at this
      exact this.2 hx
  refine ⟨_, _, hrun, ?_, hperm.nodup_iff.2 hnod, ?_, ?_, ?_⟩
  · split <;> simp only [List.length_append, List.length_reverse, List.length_cons] <;> omega
  · rw [hperm.mem_iff, List.mem_append, hpe]
    exact Or.inl (by simp [und])
  · intro f hf
    rw [hperm.mem_iff, List.mem_append, hpe, List.mem_cons] at hf
    rcases hf with (rfl | hf) | hf
    · exact ⟨(hasEdge_und g a b).1 he, hn⟩
    · exact ⟨(m1 f hf).1, (m1 f hf).2.1⟩
    · refine ⟨(m2 f hf).1, ?_⟩
      have := (m2 f hf).2.1
      rw [v1, List.mem_append, not_or] at this
      exact this.1
  · intro f
    rw [hperm.mem_iff, v2, v1]
    show f ∈ (List.map und vis ++ pathEdges (a :: b :: p1)) ++ (s(b, a) :: pathEdges (a :: p2)) ↔ _
    have hsw : (s(b, a) : Sym2 V) = s(a, b) := Sym2.eq_swap
    rw [hpe, hsw]
    simp only [List.mem_append, List.mem_cons]
    tauto

theorem buildLoop_spec (env : GEnv V) {g : G V} (h : g.WF) (s : Strategy) (rnd : Nat → Nat → Nat → Nat) (fuel : Nat) :
    ∀ (n : Nat) (free vis : List (V × V)) (start : V × V), free.length < fuel →
    (∀ f, f ∈ free.map und ↔ f ∈ g.edges.map und ∧ f ∉ vis.map und) → (free.map und).Nodup →
    und start ∈ free.map und →
    ∃ ps, buildLoop env g s rnd fuel n free vis start = some (.ok ps) ∧ (ps.flatMap pathEdges).Perm (free.map und) ∧
      ∀ p ∈ ps, 2 ≤ p.length := by
  induction fuel with
  | zero => intro n free vis start hf; omega
  | succ fuel ih =>
    intro n free vis start hf hfree hnd hstart
    unfold buildLoop
    have hne : free ≠ [] := by rintro rfl; simp at hstart
    rw [if_neg hne]
    obtain ⟨hs1, hs2⟩ := (hfree _).1 hstart
    have hhas : g.HasEdge start.1 start.2 := (hasEdge_und g _ _).2 hs1
    obtain ⟨p, vis', h1, h2, h3, h4, h5, h6⟩ := buildPath_spec env h s (rnd n) vis start hhas hs2
    rw [h1]
    dsimp only
    set free' := free.filter fun e => !(memEdge e vis') with hfree'
    have hm' : ∀ f, f ∈ free'.map und ↔ f ∈ free.map und ∧ f ∉ vis'.map und := by
      intro f
      rw [hfree']
      constructor
      · intro hf
        obtain ⟨e, he, rfl⟩ := List.mem_map.1 hf
        rw [List.mem_filter, Bool.not_eq_true', ← Bool.not_eq_true, memEdge_und] at he
        exact ⟨List.mem_map_of_mem he.1, he.2⟩
      · rintro ⟨hf, hv⟩
        obtain ⟨e, he, rfl⟩ := List.mem_map.1 hf
        refine List.mem_map_of_mem ?_
        rw [List.mem_filter, Bool.not_eq_true', ← Bool.not_eq_true, memEdge_und]
        exact ⟨he, hv⟩
    have hnd' : (free'.map und).Nodup := hnd.sublist (List.filter_sublist.map _)
    have hperm : (pathEdges p ++ free'.map und).Perm (free.map und) := by
      rw [List.perm_ext_iff_of_nodup ?_ hnd]
      · intro f
        rw [List.mem_append, hm', hfree, h6]
        constructor
        · rintro (hf | ⟨hf, -⟩)
          · exact h5 f hf
          · exact hf
        · rintro ⟨hf1, hf2⟩
          by_cases hp : f ∈ pathEdges p
          · exact Or.inl hp
          · exact Or.inr ⟨⟨hf1, hf2⟩, fun h => h.elim hf2 hp⟩
      · rw [List.nodup_append]
        refine ⟨h3, hnd', ?_⟩
        intro x hx y hy
        rintro rfl
        exact ((hm' x).1 hy).2 ((h6 x).2 (Or.inr hx))
    by_cases hz : free' = []
    · rw [if_pos hz]
      refine ⟨[p], rfl, ?_, ?_⟩
      · rw [hz] at hperm
        simpa using hperm
      · intro q hq
        simp only [List.mem_singleton] at hq
        subst hq; exact h2
    · rw [if_neg hz]
      obtain ⟨next, hnx, hch⟩ := choice_ok (rnd n 2 0) free' hz
      rw [hch]
      dsimp only
      have hlen : free'.length < free.length := by
        rw [hfree']
        apply List.length_filter_lt_length_iff_exists.2
        obtain ⟨e, he, hes⟩ := List.mem_map.1 hstart
        refine ⟨e, he, ?_⟩
        rw [Bool.not_eq_true, Bool.not_eq_false', memEdge_und, hes, h6]
        exact Or.inr h4
      obtain ⟨ps, h7, h8, h9⟩ := ih (n + 1) free' vis' next (by omega) (by
        intro f
        rw [hm', hfree, h6]
        constructor
        · rintro ⟨⟨hf1, -⟩, hf2⟩; exact ⟨hf1, hf2⟩
        · rintro ⟨hf1, hf2⟩; exact ⟨⟨hf1, fun h => hf2 (Or.inl h)⟩, hf2⟩) hnd' (List.mem_map_of_mem hnx)
      rw [h7]
      refine ⟨p :: ps, rfl, ?_, ?_⟩
      · rw [List.flatMap_cons]
        exact (h8.append_left _).trans hperm
      · intro q hq
        rcases List.mem_cons.1 hq with rfl | hq
        · exact h2
        · exact h9 q hq

theorem insertBy_length_sorted (a : List V) (l : List (List V)) (h : l.Pairwise fun x y => y.length ≤ x.length) :
    (insertBy (fun a b => decide (b.length < a.length)) a l).Pairwise fun x y => y.length ≤ x.length := by
  induction l with
  | nil => simp [insertBy]
  | cons b l ih =>
    rw [List.pairwise_cons] at h
    unfold insertBy
    split
    · rename_i hlt
      have hlt : a.length < b.length := by simpa using hlt
      rw [List.pairwise_cons]
      refine ⟨?_, ih h.2⟩
      intro x hx
      rcases List.mem_cons.1 ((insertBy_perm _ a l).mem_iff.1 hx) with rfl | hx
      · exact hlt.le
      · exact h.1 x hx
    · rename_i hlt
      have hle : b.length ≤ a.length := by simpa using hlt
      rw [List.pairwise_cons]
      refine ⟨?_, List.pairwise_cons.2 h⟩
      intro x hx
      rcases List.mem_cons.1 hx with rfl | hx
      · exact hle
      · exact (h.1 x hx).trans hle

theorem sortBy_length_sorted (l : List (List V)) :
    (sortBy (fun a b => decide (b.length < a.length)) l).Pairwise fun x y => y.length ≤ x.length := by
  induction l with
  | nil => exact List.Pairwise.nil
  | cons a l ih => exact insertBy_length_sorted a _ ih

theorem isChain_of_pathEdges {g : G V} (p : List V) (h : ∀ f ∈ pathEdges p, f ∈ g.edges.map und) : p.IsChain g.HasEdge := by
  induction p with
  | nil => simp
  | cons a p ih =>
    cases p with
    | nil => simp
    | cons b p =>
      rw [List.isChain_cons_cons]
      refine ⟨(hasEdge_und g a b).2 (h _ (by simp [pathEdges])), ih ?_⟩
      intro f hf
      exact h f (by simp only [pathEdges, List.mem_cons]; exact Or.inr hf)

/-- **C67**, for every graph with at least one edge, every strategy, every outcome of the random choices and every start edge
of the graph (or none): `build_paths` terminates without an exception; the paths run along edges of the graph, together they use
every edge exactly once, every path has at least one edge, and they are sorted by decreasing length.  Missing: the graph without
edges (`C67_refuted_empty`). -/
theorem C67_build_paths_partial (env : GEnv V) {g : G V} (h : g.WF) (s : Strategy) (rnd : Nat → Nat → Nat → Nat)
    (start : Option (V × V)) (hne : g.edges ≠ []) (hs : ∀ e, start = some e → g.HasEdge e.1 e.2) :
    ∃ ps, buildPaths env g s rnd start = some (.ok ps) ∧ (ps.flatMap pathEdges).Perm (g.edges.map und) ∧
      (∀ p ∈ ps, p.IsChain g.HasEdge ∧ 2 ≤ p.length) ∧ ps.Pairwise fun p q => q.length ≤ p.length := by
  have key : ∀ e : V × V, g.HasEdge e.1 e.2 →
      ∃ ps, ((buildLoop env g s rnd (g.edges.length + 1) 0 g.edges [] e).map
        fun r => r.map fun ps => sortBy (fun a b => decide (b.length < a.length)) ps) = some (.ok ps) ∧
        (ps.flatMap pathEdges).Perm (g.edges.map und) ∧
      (∀ p ∈ ps, p.IsChain g.HasEdge ∧ 2 ≤ p.length) ∧ ps.Pairwise fun p q => q.length ≤ p.length := by
    intro e he
    obtain ⟨ps, h1, h2, h3⟩ := buildLoop_spec env h s rnd (g.edges.length + 1) 0 g.edges [] e (Nat.lt_succ_self _)
      (by simp) (edges_nodup h) ((hasEdge_und g _ _).1 he)
    rw [h1]
    have hp := sortBy_perm (fun a b : List V => decide (b.length < a.length)) ps
    have hp2 := (hp.flatMap_right pathEdges).trans h2
    refine ⟨_, rfl, hp2, ?_, sortBy_length_sorted ps⟩
    intro p hp'
    refine ⟨isChain_of_pathEdges p ?_, h3 p (hp.mem_iff.1 hp')⟩
    intro f hf
    exact hp2.mem_iff.1 (List.mem_flatMap.2 ⟨p, hp', hf⟩)
  unfold buildPaths
  cases start with
  | none =>
    obtain ⟨e, he, hc⟩ := choice_ok (rnd 0 2 1) g.edges hne
    dsimp only
    rw [hc]
    exact key e (Or.inl he)
  | some e => exact key e (hs e rfl)

/-- **C67** is refuted for the graph without edges: without a start edge `build_paths` raises `IndexError` (there is nothing to
choose from). -/
theorem C67_refuted_empty (env : GEnv V) (g : G V) (s : Strategy) (rnd : Nat → Nat → Nat → Nat) (h : g.edges = []) :
    buildPaths env g s rnd none = some (.error .indexError) := by
  unfold buildPaths
  rw [h, choice_nil]

/-- Non-vacuity: paths of the demonstration graph (a triangle with a tail). -/
example : buildPaths envN (G.empty.run envN demoOps) .straightest (fun _ _ _ => 0) none
    = some (.ok [[5, 4, 3, 2, 1, 3]]) := by decide +kernel

end Verif.Graph
