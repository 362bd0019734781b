import Verif.Graph.Model
import Verif.Geom.Props5
import Mathlib.Tactic.Tauto
import Mathlib.Algebra.BigOperators.Group.List.Basic

/-!
# C65, C66: graph bookkeeping and culling of open edges
-/

set_option linter.unusedSectionVars false

namespace Verif.Graph
open Verif

/-- Points that are pairwise identical or at least the tolerance apart form a vertex type: `==` is identity on them. -/
theorem vertices_of_points (eps : ℝ) (heps : 0 < eps) (S : Set (Geom.P ℝ))
    (hS : ∀ p ∈ S, ∀ q ∈ S, p = q ∨ eps ^ 2 ≤ Geom.sqDist p q) (p q : Geom.P ℝ) (hp : p ∈ S) (hq : q ∈ S) :
    p.eq eps q = true ↔ p = q := by
  rw [Geom.eq_iff]
  constructor
  · intro h
    rcases hS p hp q hq with h1 | h1
    · exact h1
    · exact absurd h (not_lt.2 h1)
  · rintro rfl
    have : Geom.sqDist p p = 0 := by unfold Geom.sqDist; ring
    rw [this]; exact pow_pos heps 2

variable {V : Type} [DecidableEq V]

/-! ## Specification -/

/-- Specification: `a` and `b` are joined by an edge of the edge set (edges have no direction). -/
def G.HasEdge (g : G V) (a b : V) : Prop := (a, b) ∈ g.edges ∨ (b, a) ∈ g.edges

/-- Specification: the pair is the edge `e`, in either direction. -/
def IsEdge (e : V × V) (a b : V) : Prop := (a = e.1 ∧ b = e.2) ∨ (a = e.2 ∧ b = e.1)

/-- Specification: a well-formed graph.  A node lists `b` as neighbour iff there is an edge; no edge is degenerate, none is
there twice (in either direction), no neighbour is listed twice; the nodes are exactly the end points of edges; the degrees
sum to twice the number of edges. -/
structure G.WF (g : G V) : Prop where
  adjacent : ∀ a b, (a ∈ g.keys ∧ b ∈ g.adj a) ↔ g.HasEdge a b
  simple : ∀ e ∈ g.edges, e.1 ≠ e.2
  distinct : g.edges.Pairwise fun e f => ¬ IsEdge e f.1 f.2
  keysNodup : g.keys.Nodup
  adjNodup : ∀ a ∈ g.keys, (g.adj a).Nodup
  noIsolated : ∀ a ∈ g.keys, g.adj a ≠ []
  handshake : (g.keys.map fun v => (g.adj v).length).sum = 2 * g.edges.length

/-! ## Lemmas -/

theorem sameEdge_iff (e f : V × V) : sameEdge e f = true ↔ IsEdge e f.1 f.2 := by
  unfold sameEdge IsEdge
  simp only [Bool.or_eq_true, decide_eq_true_eq]
  constructor
  · rintro (⟨h1, h2⟩ | ⟨h1, h2⟩)
    · exact Or.inl ⟨h1.symm, h2.symm⟩
    · exact Or.inr ⟨h2.symm, h1.symm⟩
  · rintro (⟨h1, h2⟩ | ⟨h1, h2⟩)
    · exact Or.inl ⟨h1.symm, h2.symm⟩
    · exact Or.inr ⟨h2.symm, h1.symm⟩

theorem IsEdge.symm {e : V × V} {a b : V} (h : IsEdge e a b) : IsEdge e b a := by
  rcases h with ⟨h1, h2⟩ | ⟨h1, h2⟩
  · exact Or.inr ⟨h2, h1⟩
  · exact Or.inl ⟨h2, h1⟩

theorem memEdge_iff (a b : V) (l : List (V × V)) : memEdge (a, b) l = true ↔ (a, b) ∈ l ∨ (b, a) ∈ l := by
  unfold memEdge
  rw [List.any_eq_true]
  constructor
  · rintro ⟨⟨x, y⟩, hf, h⟩
    rcases (sameEdge_iff _ _).1 h with ⟨h1, h2⟩ | ⟨h1, h2⟩ <;> dsimp only at h1 h2 <;> subst h1 <;> subst h2
    · exact Or.inl hf
    · exact Or.inr hf
  · rintro (h | h)
    · exact ⟨_, h, (sameEdge_iff _ _).2 (Or.inl ⟨rfl, rfl⟩)⟩
    · exact ⟨_, h, (sameEdge_iff _ _).2 (Or.inr ⟨rfl, rfl⟩)⟩

theorem HasEdge.symm {g : G V} {a b : V} (h : g.HasEdge a b) : g.HasEdge b a := h.elim Or.inr Or.inl

/-- An edge of the set in one direction is an end point pair of exactly that edge. -/
theorem hasEdge_iff (g : G V) (a b : V) : g.HasEdge a b ↔ ∃ e ∈ g.edges, IsEdge e a b := by
  unfold G.HasEdge
  constructor
  · rintro (h | h)
    · exact ⟨_, h, Or.inl ⟨rfl, rfl⟩⟩
    · exact ⟨_, h, Or.inr ⟨rfl, rfl⟩⟩
  · rintro ⟨⟨x, y⟩, he, ⟨h1, h2⟩ | ⟨h1, h2⟩⟩ <;> dsimp only at h1 h2 <;> subst h1 <;> subst h2
    · exact Or.inl he
    · exact Or.inr he

theorem empty_wf : (G.empty : G V).WF := by
  refine ⟨?_, ?_, ?_, ?_, ?_, ?_, ?_⟩ <;> simp [G.empty, G.HasEdge]

/-- Sum over the keys after changing the function at one key. -/
theorem sum_update {keys : List V} (hn : keys.Nodup) (f : V → List V) (v : V) (l : List V) (hv : v ∈ keys) :
    (keys.map fun w => (Function.update f v l w).length).sum + (f v).length
      = (keys.map fun w => (f w).length).sum + l.length := by
  induction keys with
  | nil => cases hv
  | cons k keys ih =>
    rw [List.nodup_cons] at hn
    simp only [List.map_cons, List.sum_cons]
    rcases List.mem_cons.1 hv with rfl | hv
    · have : keys.map (fun w => (Function.update f v l w).length) = keys.map fun w => (f w).length := by
        apply List.map_congr_left
        intro w hw
        have hwv : w ≠ v := by rintro rfl; exact hn.1 hw
        rw [Function.update_of_ne hwv]
      rw [this, Function.update_self]; omega
    · have hk : k ≠ v := fun h => hn.1 (h ▸ hv)
      have := ih hn.2 hv
      rw [Function.update_of_ne hk]; omega

theorem ensure_spec (g : G V) (v : V) (h : g.keys.Nodup) :
    (g.ensure v).keys.Nodup ∧ v ∈ (g.ensure v).keys ∧ (∀ w, w ∈ (g.ensure v).keys ↔ w = v ∨ w ∈ g.keys) ∧
    (∀ w ∈ g.keys, (g.ensure v).adj w = g.adj w) ∧ (v ∉ g.keys → (g.ensure v).adj v = []) ∧
    (g.ensure v).edges = g.edges ∧ (g.ensure v).bottom = g.bottom ∧
    ((g.ensure v).keys.map fun w => ((g.ensure v).adj w).length).sum = (g.keys.map fun w => (g.adj w).length).sum := by
  unfold G.ensure
  split
  · rename_i hv
    refine ⟨h, hv, ?_, fun _ _ => rfl, fun hn => absurd hv hn, rfl, rfl, rfl⟩
    intro w; constructor
    · exact Or.inr
    · rintro (rfl | hw)
      · exact hv
      · exact hw
  · rename_i hv
    have hadj : ∀ w ∈ g.keys, Function.update g.adj v [] w = g.adj w := fun w hw =>
      Function.update_of_ne (by rintro rfl; exact hv hw) _ _
    refine ⟨?_, by simp, ?_, hadj, fun _ => by simp, rfl, rfl, ?_⟩
    · rw [List.nodup_append]
      refine ⟨h, by simp, ?_⟩
      intro a ha b hb
      simp only [List.mem_singleton] at hb
      subst hb
      rintro rfl; exact hv ha
    · intro w; simp; tauto
    · simp only [List.map_append, List.map_cons, List.map_nil, List.sum_append, List.sum_cons, List.sum_nil,
        Function.update_self, List.length_nil, Nat.add_zero]
      congr 1
      exact List.map_congr_left fun w hw => by rw [hadj w hw]

theorem addEdge_cases (env : GEnv V) (g : G V) (a b : V) :
    ((a = b ∨ g.HasEdge a b) ∧ g.addEdge env a b = (g, none)) ∨
    (a ≠ b ∧ ¬ g.HasEdge a b ∧ ∃ bot err, g.addEdge env a b = ({ g.withEdge a b with bottom := bot }, err) ∧
      (g.bottom ≠ .none → err = none) ∧ (g.bottom = .none → err = some .attributeError ∧ bot = .none)) := by
  unfold G.addEdge
  by_cases h1 : a = b
  · rw [if_pos h1]; exact Or.inl ⟨Or.inl h1, rfl⟩
  rw [if_neg h1]
  by_cases h2 : memEdge (a, b) g.edges = true
  · rw [if_pos h2]; exact Or.inl ⟨Or.inr ((memEdge_iff a b _).1 h2), rfl⟩
  rw [if_neg h2]
  refine Or.inr ⟨h1, fun h => h2 ((memEdge_iff a b _).2 h), ?_⟩
  have hb : (g.withEdge a b).bottom = g.bottom := by
    unfold G.withEdge G.link G.ensure
    split <;> split <;> rfl
  unfold G.settle
  rw [hb]
  cases hbot : g.bottom with
  | none =>
    refine ⟨.none, some .attributeError, ?_, fun h => absurd rfl h, fun _ => ⟨rfl, rfl⟩⟩
    show (g.withEdge a b, _) = _
    rw [← hbot, ← hb]
  | maxPoint =>
    refine ⟨if env.yLt b a then .node b else .node a, none, ?_, fun _ => rfl, fun h => by cases h⟩
    rfl
  | node v =>
    unfold lowerBottom
    by_cases hv : env.yLt a v = true
    · simp only [if_pos hv]
      exact ⟨if env.yLt b a then .node b else .node a, none, rfl, fun _ => rfl, fun h => by cases h⟩
    · simp only [if_neg hv]
      exact ⟨if env.yLt b v then .node b else .node v, none, rfl, fun _ => rfl, fun h => by cases h⟩

theorem withEdge_spec {g : G V} (h : g.WF) {a b : V} (hab : a ≠ b) (hne : ¬ g.HasEdge a b) :
    (g.withEdge a b).WF ∧ (g.withEdge a b).edges = g.edges ++ [(a, b)] := by
  obtain ⟨k1, k2, k3, k4, k5, k6, -, k7⟩ :=
    ensure_spec ({ g with modified := true, edges := g.edges ++ [(a, b)] } : G V) a h.keysNodup
  obtain ⟨m1, m2, m3, m4, m5, m6, -, m7⟩ :=
    ensure_spec (({ g with modified := true, edges := g.edges ++ [(a, b)] } : G V).ensure a) b k1
  set g1 := ({ g with modified := true, edges := g.edges ++ [(a, b)] } : G V).ensure a with hg1
  set g2 := g1.ensure b with hg2
  have hkeys : (g.withEdge a b).keys = g2.keys := rfl
  have hedges : (g.withEdge a b).edges = g.edges ++ [(a, b)] := by
    show g2.edges = _
    rw [m6, k6]
  have hadj : (g.withEdge a b).adj
      = Function.update (Function.update g2.adj a (g2.adj a ++ [b])) b
          ((Function.update g2.adj a (g2.adj a ++ [b])) b ++ [a]) := rfl
  have hba : b ≠ a := fun e => hab e.symm
  have hadja : (g.withEdge a b).adj a = g2.adj a ++ [b] := by
    rw [hadj, Function.update_of_ne hab, Function.update_self]
  have hadjb : (g.withEdge a b).adj b = g2.adj b ++ [a] := by
    rw [hadj, Function.update_self, Function.update_of_ne hba]
  have hadjo : ∀ w, w ≠ a → w ≠ b → (g.withEdge a b).adj w = g2.adj w := by
    intro w h1 h2
    rw [hadj, Function.update_of_ne h2, Function.update_of_ne h1]
  have hak : a ∈ g2.keys := (m3 a).2 (Or.inr k2)
  -- neighbours before
  have old : ∀ w ∈ g2.keys, ∀ x, x ∈ g2.adj w ↔ g.HasEdge w x := by
    intro w hw x
    rw [← h.adjacent]
    by_cases hw0 : w ∈ g.keys
    · have e1 : g1.adj w = g.adj w := k4 w hw0
      have e2 : g2.adj w = g1.adj w := m4 w ((k3 w).2 (Or.inr hw0))
      rw [e2, e1]; exact ⟨fun h => ⟨hw0, h⟩, fun h => h.2⟩
    · have e2 : g2.adj w = [] := by
        by_cases hw1 : w ∈ g1.keys
        · have hwa : w = a := ((k3 w).1 hw1).resolve_right hw0
          rw [m4 w hw1, hwa]
          exact k5 (hwa ▸ hw0)
        · have hwb : w = b := ((m3 w).1 hw).resolve_right hw1
          rw [hwb]; exact m5 (hwb ▸ hw1)
      rw [e2]; simp [hw0]
  have oldNodup : ∀ w ∈ g2.keys, (g2.adj w).Nodup := by
    intro w hw
    by_cases hw0 : w ∈ g.keys
    · have e1 : g1.adj w = g.adj w := k4 w hw0
      have e2 : g2.adj w = g1.adj w := m4 w ((k3 w).2 (Or.inr hw0))
      rw [e2, e1]; exact h.adjNodup w hw0
    · have : g2.adj w = [] := by
        rw [List.eq_nil_iff_forall_not_mem]
        intro x hx
        have := (h.adjacent w x).2 ((old w hw x).1 hx)
        exact hw0 this.1
      rw [this]; exact List.nodup_nil
  have hnew : ∀ x y, (g.withEdge a b).HasEdge x y ↔ g.HasEdge x y ∨ IsEdge (a, b) x y := by
    intro x y
    unfold G.HasEdge IsEdge
    rw [hedges]
    simp only [List.mem_append, List.mem_singleton, Prod.mk.injEq]
    tauto
  refine ⟨⟨?_, ?_, ?_, ?_, ?_, ?_, ?_⟩, hedges⟩
  · intro x y
    rw [hnew, hkeys]
    by_cases hx : x = a
    · subst hx
      rw [hadja, List.mem_append, List.mem_singleton, old x hak]
      constructor
      · rintro ⟨-, h | h⟩
        · exact Or.inl h
        · exact Or.inr (Or.inl ⟨rfl, h⟩)
      · rintro (h | ⟨-, h⟩ | ⟨h, -⟩)
        · exact ⟨hak, Or.inl h⟩
        · exact ⟨hak, Or.inr h⟩
        · exact absurd h hab
    · by_cases hxb : x = b
      · subst hxb
        rw [hadjb, List.mem_append, List.mem_singleton, old x m2]
        constructor
        · rintro ⟨-, h | h⟩
          · exact Or.inl h
          · exact Or.inr (Or.inr ⟨rfl, h⟩)
        · rintro (h | ⟨h, -⟩ | ⟨-, h⟩)
          · exact ⟨m2, Or.inl h⟩
          · exact absurd h hx
          · exact ⟨m2, Or.inr h⟩
      · rw [hadjo x hx hxb]
        constructor
        · rintro ⟨hk, h⟩
          exact Or.inl ((old x hk y).1 h)
        · rintro (h' | ⟨h, -⟩ | ⟨h, -⟩)
          · have hk : x ∈ g2.keys := (m3 x).2 (Or.inr ((k3 x).2 (Or.inr ((h.adjacent x y).2 h').1)))
            exact ⟨hk, (old x hk y).2 h'⟩
          · exact absurd h hx
          · exact absurd h hxb
  · intro e he
    rw [hedges, List.mem_append, List.mem_singleton] at he
    rcases he with he | rfl
    · exact h.simple e he
    · exact hab
  · rw [hedges, List.pairwise_append]
    refine ⟨h.distinct, by simp, ?_⟩
    intro e he f hf
    simp only [List.mem_singleton] at hf
    subst hf
    intro hie
    exact hne ((hasEdge_iff g a b).2 ⟨e, he, hie⟩)
  · rw [hkeys]; exact m1
  · intro x hx
    rw [hkeys] at hx
    by_cases hxa : x = a
    · subst hxa
      rw [hadja, List.nodup_append]
      refine ⟨oldNodup x hx, by simp, ?_⟩
      intro u hu v hv
      simp only [List.mem_singleton] at hv
      subst hv
      rintro rfl
      exact hne ((old x hx u).1 hu)
    · by_cases hxb : x = b
      · subst hxb
        rw [hadjb, List.nodup_append]
        refine ⟨oldNodup x hx, by simp, ?_⟩
        intro u hu v hv
        simp only [List.mem_singleton] at hv
        subst hv
        rintro rfl
        exact hne (HasEdge.symm ((old x hx u).1 hu))
      · rw [hadjo x hxa hxb]; exact oldNodup x hx
  · intro x hx
    rw [hkeys] at hx
    by_cases hxa : x = a
    · subst hxa; rw [hadja]; simp
    · by_cases hxb : x = b
      · subst hxb; rw [hadjb]; simp
      · rw [hadjo x hxa hxb]
        have hk : x ∈ g.keys := by
          rcases (m3 x).1 hx with h | h
          · exact absurd h hxb
          · exact ((k3 x).1 h).resolve_left hxa
        have e1 : g1.adj x = g.adj x := k4 x hk
        rw [m4 x ((k3 x).2 (Or.inr hk)), e1]
        exact h.noIsolated x hk
  · rw [hkeys, hedges, hadj]
    have s1 := sum_update m1 g2.adj a (g2.adj a ++ [b]) hak
    have s2 := sum_update m1 (Function.update g2.adj a (g2.adj a ++ [b])) b
      ((Function.update g2.adj a (g2.adj a ++ [b])) b ++ [a]) m2
    simp only [List.length_append, List.length_cons, List.length_nil] at s1 s2 ⊢
    have hh := h.handshake
    have k7' : (g1.keys.map fun w => (g1.adj w).length).sum = (g.keys.map fun w => (g.adj w).length).sum := k7
    omega

/-- Removing one edge of a set of distinct edges. -/
theorem filter_length (l : List (V × V)) (e : V × V) (hd : l.Pairwise fun e f => ¬ IsEdge e f.1 f.2)
    (he : ∃ f ∈ l, IsEdge e f.1 f.2) : (l.filter fun f => !(sameEdge e f)).length + 1 = l.length := by
  induction l with
  | nil => obtain ⟨f, hf, -⟩ := he; cases hf
  | cons x l ih =>
    rw [List.pairwise_cons] at hd
    by_cases hx : IsEdge e x.1 x.2
    · rw [List.filter_cons_of_neg (by simpa using (sameEdge_iff e x).2 hx)]
      have : l.filter (fun f => !(sameEdge e f)) = l := by
        rw [List.filter_eq_self]
        intro f hf
        rw [Bool.not_eq_true', ← Bool.not_eq_true, sameEdge_iff]
        intro hf2
        apply hd.1 f hf
        rcases hx with ⟨h1, h2⟩ | ⟨h1, h2⟩ <;> rcases hf2 with ⟨h3, h4⟩ | ⟨h3, h4⟩
        · exact Or.inl ⟨by rw [h1, h3], by rw [h2, h4]⟩
        · exact Or.inr ⟨by rw [h2, h3], by rw [h1, h4]⟩
        · exact Or.inr ⟨by rw [h2, h3], by rw [h1, h4]⟩
        · exact Or.inl ⟨by rw [h1, h3], by rw [h2, h4]⟩
      rw [this]; rfl
    · rw [List.filter_cons_of_pos (by
        rw [Bool.not_eq_true', ← Bool.not_eq_true, sameEdge_iff]; exact hx)]
      obtain ⟨f, hf, hef⟩ := he
      rcases List.mem_cons.1 hf with rfl | hf
      · exact absurd hef hx
      · have := ih hd.2 ⟨f, hf, hef⟩
        simp only [List.length_cons]; omega

theorem sum_erase (keys : List V) (f : V → List V) (v : V) (hv : v ∈ keys) (h0 : f v = []) :
    ((keys.erase v).map fun w => (f w).length).sum = (keys.map fun w => (f w).length).sum := by
  have := ((List.perm_cons_erase hv).map fun w => (f w).length).sum_eq
  rw [this]; simp [h0]

theorem removeEdge_ok {g : G V} (h : g.WF) {e : V × V} (he : g.HasEdge e.1 e.2) :
    ∃ g', g.removeEdge e = .ok g' ∧ g'.WF ∧ g'.edges = (g.edges.filter fun f => !(sameEdge e f)) ∧
      (∀ x y, g'.HasEdge x y ↔ g.HasEdge x y ∧ ¬ IsEdge e x y) ∧ g'.edges.length + 1 = g.edges.length ∧
      g'.bottom = g.bottom := by
  obtain ⟨a, b⟩ := e
  dsimp only at he
  have ha := (h.adjacent a b).2 he
  have hb := (h.adjacent b a).2 (HasEdge.symm he)
  have hab : a ≠ b := by
    rcases he with h1 | h1
    · exact h.simple _ h1
    · exact fun e => h.simple _ h1 e.symm
  have hba : b ≠ a := fun e => hab e.symm
  set f1 := Function.update g.adj a ((g.adj a).erase b) with hf1
  set f2 := Function.update f1 b ((f1 b).erase a) with hf2
  have e2a : f2 a = (g.adj a).erase b := by rw [hf2, Function.update_of_ne hab, hf1, Function.update_self]
  have e1b : f1 b = g.adj b := by rw [hf1, Function.update_of_ne hba]
  have e2b : f2 b = (g.adj b).erase a := by rw [hf2, Function.update_self, e1b]
  have e2o : ∀ w, w ≠ a → w ≠ b → f2 w = g.adj w := by
    intro w h1 h2
    rw [hf2, Function.update_of_ne h2, hf1, Function.update_of_ne h1]
  set k1 := if f2 a = [] then g.keys.erase a else g.keys with hk1
  set k2 := if f2 b = [] then k1.erase b else k1 with hk2
  have hbk1 : b ∈ k1 := by
    rw [hk1]; split
    · exact (List.mem_erase_of_ne hba).2 hb.1
    · exact hb.1
  have k1n : k1.Nodup := by
    rw [hk1]; split
    · exact h.keysNodup.erase a
    · exact h.keysNodup
  have k2n : k2.Nodup := by
    rw [hk2]; split
    · exact k1n.erase b
    · exact k1n
  have hmem : memEdge (a, b) g.edges = true := (memEdge_iff a b _).2 he
  have hrun : g.removeEdge (a, b) = .ok ⟨g.edges.filter fun f => !(sameEdge (a, b) f), k2, f2, g.bottom, true⟩ := by
    unfold G.removeEdge
    rw [if_pos ha.1, if_pos hb.1]
    have u1 : ({ g with modified := true } : G V).unlink a b = .ok ⟨g.edges, g.keys, f1, g.bottom, true⟩ := by
      unfold G.unlink; rw [if_pos ha.2]
    have u2 : (⟨g.edges, g.keys, f1, g.bottom, true⟩ : G V).unlink b a = .ok ⟨g.edges, g.keys, f2, g.bottom, true⟩ := by
      unfold G.unlink; rw [if_pos (by show a ∈ f1 b; rw [e1b]; exact hb.2)]
    have u3 : (⟨g.edges, g.keys, f2, g.bottom, true⟩ : G V).dropIfIsolated a = .ok ⟨g.edges, k1, f2, g.bottom, true⟩ := by
      unfold G.dropIfIsolated
      by_cases hz : f2 a = []
      · rw [if_pos hz, if_pos ha.1, hk1, if_pos hz]
      · rw [if_neg hz, hk1, if_neg hz]
    have u4 : (⟨g.edges, k1, f2, g.bottom, true⟩ : G V).dropIfIsolated b = .ok ⟨g.edges, k2, f2, g.bottom, true⟩ := by
      unfold G.dropIfIsolated
      by_cases hz : f2 b = []
      · rw [if_pos hz, if_pos hbk1, hk2, if_pos hz]
      · rw [if_neg hz, hk2, if_neg hz]
    simp only [u1, u2, u3, u4, bind, Except.bind, if_pos hmem]
  have hlen := filter_length g.edges (a, b) h.distinct (by
    obtain ⟨f, hf, hfe⟩ := (hasEdge_iff g a b).1 he
    refine ⟨f, hf, ?_⟩
    rcases hfe with ⟨h1, h2⟩ | ⟨h1, h2⟩
    · exact Or.inl ⟨h1.symm, h2.symm⟩
    · exact Or.inr ⟨h2.symm, h1.symm⟩)
  have hE : ∀ x y, (x, y) ∈ (g.edges.filter fun f => !(sameEdge (a, b) f)) ↔ (x, y) ∈ g.edges ∧ ¬ IsEdge (a, b) x y := by
    intro x y
    rw [List.mem_filter, Bool.not_eq_true', ← Bool.not_eq_true, sameEdge_iff]
  have hHas : ∀ x y, (⟨g.edges.filter fun f => !(sameEdge (a, b) f), k2, f2, g.bottom, true⟩ : G V).HasEdge x y ↔
      g.HasEdge x y ∧ ¬ IsEdge (a, b) x y := by
    intro x y
    unfold G.HasEdge
    rw [hE, hE]
    constructor
    · rintro (⟨h1, h2⟩ | ⟨h1, h2⟩)
      · exact ⟨Or.inl h1, h2⟩
      · exact ⟨Or.inr h1, fun h => h2 h.symm⟩
    · rintro ⟨h1 | h1, h2⟩
      · exact Or.inl ⟨h1, h2⟩
      · exact Or.inr ⟨h1, fun h => h2 h.symm⟩
  -- keys after removal
  have hk2mem : ∀ w, w ∈ k2 ↔ w ∈ g.keys ∧ ¬ (w = a ∧ f2 a = []) ∧ ¬ (w = b ∧ f2 b = []) := by
    intro w
    have hk1mem : w ∈ k1 ↔ w ∈ g.keys ∧ ¬ (w = a ∧ f2 a = []) := by
      rw [hk1]; split
      · rename_i hz
        rw [h.keysNodup.mem_erase_iff]
        constructor
        · rintro ⟨h1, h2⟩; exact ⟨h2, fun h => h1 h.1⟩
        · rintro ⟨h1, h2⟩; exact ⟨fun h => h2 ⟨h, hz⟩, h1⟩
      · rename_i hz
        exact ⟨fun h => ⟨h, fun h => hz h.2⟩, fun h => h.1⟩
    rw [hk2]; split
    · rename_i hz
      rw [k1n.mem_erase_iff, hk1mem]
      constructor
      · rintro ⟨h1, h2, h3⟩; exact ⟨h2, h3, fun h => h1 h.1⟩
      · rintro ⟨h1, h2, h3⟩; exact ⟨fun h => h3 ⟨h, hz⟩, h1, h2⟩
    · rename_i hz
      rw [hk1mem]
      exact ⟨fun h => ⟨h.1, h.2, fun h => hz h.2⟩, fun h => ⟨h.1, h.2.1⟩⟩
  have hmem2 : ∀ x ∈ g.keys, ∀ y, y ∈ f2 x ↔ g.HasEdge x y ∧ ¬ IsEdge (a, b) x y := by
    intro x hx y
    have hold : y ∈ g.adj x ↔ g.HasEdge x y := by
      rw [← h.adjacent]; exact ⟨fun h => ⟨hx, h⟩, fun h => h.2⟩
    by_cases hxa : x = a
    · subst hxa
      rw [e2a, (h.adjNodup x hx).mem_erase_iff, hold]
      constructor
      · rintro ⟨h1, h2⟩
        refine ⟨h2, ?_⟩
        rintro (⟨-, h3⟩ | ⟨h3, -⟩)
        · exact h1 h3
        · exact hab h3
      · rintro ⟨h1, h2⟩
        exact ⟨fun h => h2 (Or.inl ⟨rfl, h⟩), h1⟩
    · by_cases hxb : x = b
      · subst hxb
        rw [e2b, (h.adjNodup x hx).mem_erase_iff, hold]
        constructor
        · rintro ⟨h1, h2⟩
          refine ⟨h2, ?_⟩
          rintro (⟨h3, -⟩ | ⟨-, h3⟩)
          · exact hxa h3
          · exact h1 h3
        · rintro ⟨h1, h2⟩
          exact ⟨fun h => h2 (Or.inr ⟨rfl, h⟩), h1⟩
      · rw [e2o x hxa hxb, hold]
        constructor
        · intro h1
          refine ⟨h1, ?_⟩
          rintro (⟨h3, -⟩ | ⟨h3, -⟩)
          · exact hxa h3
          · exact hxb h3
        · exact fun h => h.1
  refine ⟨_, hrun, ⟨?_, ?_, ?_, k2n, ?_, ?_, ?_⟩, rfl, hHas, hlen, rfl⟩
  · intro x y
    rw [hHas]
    show x ∈ k2 ∧ y ∈ f2 x ↔ _
    rw [hk2mem]
    constructor
    · rintro ⟨⟨h1, -, -⟩, h2⟩
      exact (hmem2 x h1 y).1 h2
    · rintro h1
      have hx := ((h.adjacent x y).2 h1.1).1
      have hy := (hmem2 x hx y).2 h1
      refine ⟨⟨hx, ?_, ?_⟩, hy⟩
      · rintro ⟨rfl, hz⟩; rw [hz] at hy; cases hy
      · rintro ⟨rfl, hz⟩; rw [hz] at hy; cases hy
  · intro e he
    exact h.simple e (List.mem_filter.1 he).1
  · exact h.distinct.filter _
  · intro x hx
    replace hx : x ∈ g.keys := ((hk2mem x).1 hx).1
    show (f2 x).Nodup
    by_cases hxa : x = a
    · subst hxa; rw [e2a]; exact (h.adjNodup x hx).erase b
    · by_cases hxb : x = b
      · subst hxb; rw [e2b]; exact (h.adjNodup x hx).erase a
      · rw [e2o x hxa hxb]; exact h.adjNodup x hx
  · intro x hx
    have hx := (hk2mem x).1 hx
    show f2 x ≠ []
    by_cases hxa : x = a
    · subst hxa; exact fun hz => hx.2.1 ⟨rfl, hz⟩
    · by_cases hxb : x = b
      · subst hxb; exact fun hz => hx.2.2 ⟨rfl, hz⟩
      · rw [e2o x hxa hxb]; exact h.noIsolated x hx.1
  · show (k2.map fun w => (f2 w).length).sum = _
    have t1 : (k2.map fun w => (f2 w).length).sum = (k1.map fun w => (f2 w).length).sum := by
      rw [hk2]; split
      · rename_i hz; exact sum_erase k1 f2 b hbk1 hz
      · rfl
    have t2 : (k1.map fun w => (f2 w).length).sum = (g.keys.map fun w => (f2 w).length).sum := by
      rw [hk1]; split
      · rename_i hz; exact sum_erase g.keys f2 a ha.1 hz
      · rfl
    have s1 := sum_update h.keysNodup g.adj a ((g.adj a).erase b) ha.1
    have s2 := sum_update h.keysNodup f1 b ((f1 b).erase a) hb.1
    have l1 := List.length_erase_of_mem ha.2
    have l2 := List.length_erase_of_mem hb.2
    have p1 := List.length_pos_of_mem ha.2
    have p2 := List.length_pos_of_mem hb.2
    rw [e1b] at s2
    have hh := h.handshake
    rw [t1, t2]
    rw [hf2, e1b]
    have s1' : (g.keys.map fun w => (f1 w).length).sum + (g.adj a).length
      = (g.keys.map fun w => (g.adj w).length).sum + ((g.adj a).erase b).length := s1
    show _ = 2 * (g.edges.filter fun f => !(sameEdge (a, b) f)).length
    omega

theorem removeEdge_error {g : G V} (h : g.WF) {e : V × V} (he : ¬ g.HasEdge e.1 e.2) :
    ∃ er, g.removeEdge e = .error er ∧ (er = .keyError ∨ er = .valueError) := by
  unfold G.removeEdge
  by_cases h1 : e.1 ∈ g.keys
  · rw [if_pos h1]
    by_cases h2 : e.2 ∈ g.keys
    · rw [if_pos h2]
      have : ¬ e.2 ∈ g.adj e.1 := fun h3 => he ((h.adjacent _ _).1 ⟨h1, h3⟩)
      have u : ({ g with modified := true } : G V).unlink e.1 e.2 = .error .valueError := by
        unfold G.unlink; rw [if_neg this]
      rw [u]
      exact ⟨_, rfl, Or.inr rfl⟩
    · rw [if_neg h2]; exact ⟨_, rfl, Or.inl rfl⟩
  · rw [if_neg h1]; exact ⟨_, rfl, Or.inl rfl⟩

theorem insertBy_perm {α : Type} (lt : α → α → Bool) (a : α) (l : List α) : (insertBy lt a l).Perm (a :: l) := by
  induction l with
  | nil => exact List.Perm.refl _
  | cons b l ih =>
    unfold insertBy
    split
    · exact (ih.cons b).trans (List.Perm.swap a b l)
    · exact List.Perm.refl _

theorem sortBy_perm {α : Type} (lt : α → α → Bool) (l : List α) : (sortBy lt l).Perm l := by
  induction l with
  | nil => exact List.Perm.refl _
  | cons a l ih => exact (insertBy_perm lt a _).trans (ih.cons a)

theorem query_spec (env : GEnv V) (g : G V) : (g.query env).keys = g.keys ∧ (g.query env).edges = g.edges ∧
    (g.query env).bottom = g.bottom ∧ ∀ a, ((g.query env).adj a).Perm (g.adj a) := by
  unfold G.query
  split
  · refine ⟨rfl, rfl, rfl, ?_⟩
    intro a
    dsimp only
    split
    · exact sortBy_perm _ _
    · exact List.Perm.refl _
  · exact ⟨rfl, rfl, rfl, fun _ => List.Perm.refl _⟩

theorem query_wf (env : GEnv V) {g : G V} (h : g.WF) : (g.query env).WF := by
  obtain ⟨h1, h2, -, h3⟩ := query_spec env g
  have hs : ∀ x y, (g.query env).HasEdge x y ↔ g.HasEdge x y := by
    intro x y; unfold G.HasEdge; rw [h2]
  refine ⟨?_, ?_, ?_, ?_, ?_, ?_, ?_⟩
  · intro a b; rw [hs, ← h.adjacent, h1, (h3 a).mem_iff]
  · rw [h2]; exact h.simple
  · rw [h2]; exact h.distinct
  · rw [h1]; exact h.keysNodup
  · intro a ha; exact (h3 a).nodup_iff.2 (h.adjNodup a (h1 ▸ ha))
  · intro a ha hz
    have := (h3 a).length_eq
    rw [hz] at this
    exact h.noIsolated a (h1 ▸ ha) (List.length_eq_zero_iff.1 this.symm)
  · rw [h1, h2, ← h.handshake]
    congr 1
    exact List.map_congr_left fun w _ => (h3 w).length_eq

/-! ## Histories -/

/-- The calls that change a graph, apart from culling: `add_edge`, `remove_edge`, and the sorting of the neighbour lists done
by every polygon query. -/
inductive Op (V : Type) where
  | add (a b : V)
  | remove (e : V × V)
  | query

/-- One call; the caller catches the exception, if any (a failed `remove_edge` only sets the modified flag). -/
def G.step (env : GEnv V) (g : G V) : Op V → G V × Option PyErr
  | .add a b => g.addEdge env a b
  | .remove e => match g.removeEdge e with
    | .ok g' => (g', none)
    | .error er => ({ g with modified := true }, some er)
  | .query => (g.query env, none)

/-- The graph after a history. -/
def G.run (env : GEnv V) (g : G V) (ops : List (Op V)) : G V := ops.foldl (fun g op => (g.step env op).1) g

/-- Specification: what each call does to the set of edges, seen as a relation. -/
def specStep (E : V → V → Prop) : Op V → V → V → Prop
  | .add a b => fun x y => E x y ∨ (a ≠ b ∧ IsEdge (a, b) x y)
  | .remove e => fun x y => E x y ∧ ¬ IsEdge e x y
  | .query => E

/-- Specification: the edges after a history. -/
def specRun (E : V → V → Prop) (ops : List (Op V)) : V → V → Prop := ops.foldl specStep E

theorem step_spec (env : GEnv V) {g : G V} (h : g.WF) (op : Op V) :
    (g.step env op).1.WF ∧ ∀ x y, (g.step env op).1.HasEdge x y ↔ specStep g.HasEdge op x y := by
  cases op with
  | add a b =>
    show (g.addEdge env a b).1.WF ∧ ∀ x y, (g.addEdge env a b).1.HasEdge x y ↔ _
    rcases addEdge_cases env g a b with ⟨h1, h2⟩ | ⟨h1, h2, bot, err, h3, -⟩
    · rw [h2]
      refine ⟨h, fun x y => ⟨Or.inl, ?_⟩⟩
      rintro (h' | ⟨hab, hie⟩)
      · exact h'
      · rcases h1 with h1 | h1
        · exact absurd h1 hab
        · rcases hie with ⟨rfl, rfl⟩ | ⟨rfl, rfl⟩
          · exact h1
          · exact HasEdge.symm h1
    · rw [h3]
      obtain ⟨hw, he⟩ := withEdge_spec h h1 h2
      refine ⟨⟨hw.adjacent, hw.simple, hw.distinct, hw.keysNodup, hw.adjNodup, hw.noIsolated, hw.handshake⟩, ?_⟩
      intro x y
      show (g.withEdge a b).HasEdge x y ↔ _
      unfold G.HasEdge specStep IsEdge
      rw [he]
      simp only [List.mem_append, List.mem_singleton, Prod.mk.injEq]
      tauto
  | remove e =>
    by_cases he : g.HasEdge e.1 e.2
    · obtain ⟨g', h1, h2, -, h3, -⟩ := removeEdge_ok h he
      have : g.step env (.remove e) = (g', none) := by simp only [G.step, h1]
      rw [this]
      exact ⟨h2, h3⟩
    · obtain ⟨er, h1, -⟩ := removeEdge_error h he
      have : g.step env (.remove e) = ({ g with modified := true }, some er) := by simp only [G.step, h1]
      rw [this]
      refine ⟨⟨h.adjacent, h.simple, h.distinct, h.keysNodup, h.adjNodup, h.noIsolated, h.handshake⟩, ?_⟩
      intro x y
      show g.HasEdge x y ↔ g.HasEdge x y ∧ ¬ IsEdge e x y
      refine ⟨fun h' => ⟨h', ?_⟩, fun h => h.1⟩
      rintro (⟨rfl, rfl⟩ | ⟨rfl, rfl⟩)
      · exact he h'
      · exact he (HasEdge.symm h')
  | query =>
    refine ⟨query_wf env h, ?_⟩
    intro x y
    show (g.query env).HasEdge x y ↔ g.HasEdge x y
    unfold G.HasEdge; rw [(query_spec env g).2.1]

/-- **C65**: after any sequence of `add_edge`, `remove_edge` and queries on a new graph the graph is well-formed (see `G.WF`),
its edges are exactly those the calls ask for, and its nodes are exactly the end points of edges. -/
theorem C65_history (env : GEnv V) (ops : List (Op V)) :
    (G.empty.run env ops).WF ∧
    (∀ x y, (G.empty.run env ops).HasEdge x y ↔ specRun (fun _ _ => False) ops x y) ∧
    ∀ v, v ∈ (G.empty.run env ops).keys ↔ ∃ w, (G.empty.run env ops).HasEdge v w := by
  have key : ∀ (g : G V) (E : V → V → Prop), g.WF → (∀ x y, g.HasEdge x y ↔ E x y) →
      (g.run env ops).WF ∧ ∀ x y, (g.run env ops).HasEdge x y ↔ specRun E ops x y := by
    induction ops with
    | nil => intro g E h1 h2; exact ⟨h1, h2⟩
    | cons op ops ih =>
      intro g E h1 h2
      obtain ⟨h3, h4⟩ := step_spec env h1 op
      have hE : (fun x y => g.HasEdge x y) = E := by funext x y; exact propext (h2 x y)
      refine ih (g.step env op).1 (specStep E op) h3 ?_
      rw [← hE]; exact h4
  obtain ⟨h1, h2⟩ := key G.empty (fun _ _ => False) empty_wf (by intro x y; simp [G.HasEdge, G.empty])
  refine ⟨h1, h2, ?_⟩
  intro v
  constructor
  · intro hv
    obtain ⟨w, hw⟩ := List.exists_mem_of_ne_nil _ (h1.noIsolated v hv)
    exact ⟨w, (h1.adjacent v w).1 ⟨hv, hw⟩⟩
  · rintro ⟨w, hw⟩
    exact ((h1.adjacent v w).2 hw).1

/-- **C65**, exceptions: `remove_edge` raises (`KeyError` or `ValueError`) exactly when the edge is not in the graph; `add_edge` on
a graph that was never culled raises nothing. -/
theorem C65_exceptions (env : GEnv V) {g : G V} (h : g.WF) :
    (∀ e, (g.step env (.remove e)).2.isSome ↔ ¬ g.HasEdge e.1 e.2) ∧
    (g.bottom ≠ .none → ∀ a b, (g.step env (.add a b)).2 = none) := by
  refine ⟨?_, ?_⟩
  · intro e
    by_cases he : g.HasEdge e.1 e.2
    · obtain ⟨g', h1, -⟩ := removeEdge_ok h he
      have : g.step env (.remove e) = (g', none) := by simp only [G.step, h1]
      rw [this]; simp [he]
    · obtain ⟨er, h1, -⟩ := removeEdge_error h he
      have : g.step env (.remove e) = ({ g with modified := true }, some er) := by simp only [G.step, h1]
      rw [this]; simp [he]
  · intro hb a b
    show (g.addEdge env a b).2 = none
    rcases addEdge_cases env g a b with ⟨h1, h2⟩ | ⟨h1, h2, bot, err, h3, h4, -⟩
    · rw [h2]
    · rw [h3]; exact h4 hb

/-- Comparisons of the demonstration vertices: natural numbers, their own `y` coordinates. -/
def envN : GEnv Nat := ⟨fun a b => a < b, fun _ a b => a < b, fun _ _ a b => a < b⟩

/-- A triangle with a tail of two edges, built with a duplicate, a degenerate and a removed edge. -/
def demoOps : List (Op Nat) :=
  [.add 1 2, .add 2 3, .add 3 1, .add 1 3, .add 7 7, .add 3 4, .query, .add 4 5, .add 5 6, .remove (6, 5), .remove (8, 9)]

/-- Non-vacuity: the history gives five edges and five nodes, and the degrees are as expected. -/
example : (G.empty.run envN demoOps).edges = [(1, 2), (2, 3), (3, 1), (3, 4), (4, 5)] ∧
    (G.empty.run envN demoOps).keys = [1, 2, 3, 4, 5] ∧
    ([1, 2, 3, 4, 5].map fun v => ((G.empty.run envN demoOps).adj v).length) = [2, 2, 3, 2, 1] := by decide +kernel

/-! ## C66 -/

/-- Specification: every vertex of the subgraph `S` has at least two neighbours in it. -/
def Closed2 (S : V → V → Prop) : Prop := ∀ a b, S a b → ∃ c, c ≠ b ∧ S a c

theorem removeAll_spec {g : G V} (h : g.WF) (l : List (V × V)) (hl : ∀ e ∈ l, g.HasEdge e.1 e.2)
    (hd : l.Pairwise fun e f => ¬ IsEdge e f.1 f.2) :
    ∃ g', g.removeAll l = .ok g' ∧ g'.WF ∧ (∀ x y, g'.HasEdge x y ↔ g.HasEdge x y ∧ ∀ e ∈ l, ¬ IsEdge e x y) ∧
      g'.edges.length + l.length = g.edges.length := by
  induction l generalizing g with
  | nil => exact ⟨g, rfl, h, by simp, rfl⟩
  | cons e l ih =>
    obtain ⟨g1, h1, h2, -, h3, h4, -⟩ := removeEdge_ok h (hl e (by simp))
    rw [List.pairwise_cons] at hd
    obtain ⟨g', h5, h6, h7, h8⟩ := ih h2 (by
      intro f hf
      rw [h3]
      exact ⟨hl f (List.mem_cons_of_mem _ hf), hd.1 f hf⟩) hd.2
    refine ⟨g', ?_, h6, ?_, ?_⟩
    · unfold G.removeAll; rw [h1]; exact h5
    · intro x y
      rw [h7, h3]
      simp only [List.mem_cons, forall_eq_or_imp]
      tauto
    · simp only [List.length_cons]; omega

/-- An open edge belongs to no subgraph all of whose vertices have two neighbours. -/
theorem open_not_core {g : G V} (h : g.WF) {e : V × V} (he : g.HasEdge e.1 e.2) (ho : g.isOpen e = true)
    (S : V → V → Prop) (hsym : ∀ a b, S a b → S b a) (hS : ∀ a b, S a b → g.HasEdge a b) (hc : Closed2 S) (x y : V)
    (hxy : S x y) : ¬ IsEdge e x y := by
  have single : ∀ a b, g.HasEdge a b → (g.adj a).length = 1 → ¬ S a b := by
    intro a b hab hlen hs
    obtain ⟨c, hcb, hac⟩ := hc a b hs
    have h1 := (h.adjacent a b).2 hab
    have h2 := (h.adjacent a c).2 (hS a c hac)
    obtain ⟨z, hz⟩ := List.length_eq_one_iff.1 hlen
    rw [hz] at h1 h2
    simp only [List.mem_singleton] at h1 h2
    exact hcb (h2.2.trans h1.2.symm)
  unfold G.isOpen at ho
  simp only [Bool.or_eq_true, decide_eq_true_eq] at ho
  intro hie
  have hse : S e.1 e.2 := by
    rcases hie with ⟨rfl, rfl⟩ | ⟨rfl, rfl⟩
    · exact hxy
    · exact hsym _ _ hxy
  rcases ho with ho | ho
  · exact single _ _ he ho hse
  · exact single _ _ (HasEdge.symm he) ho (hsym _ _ hse)

theorem cullLoop_spec (iter : Nat → List (V × V) → List (V × V)) (hiter : ∀ n l, (iter n l).Perm l) (fuel : Nat) :
    ∀ (n : Nat) {g : G V}, g.WF → g.edges.length < fuel →
    ∃ g', g.cullLoop iter fuel n = some (.ok g') ∧ g'.WF ∧ (∀ x y, g'.HasEdge x y → g.HasEdge x y) ∧
      (∀ v ∈ g'.keys, (g'.adj v).length ≠ 1) ∧
      ∀ S : V → V → Prop, (∀ a b, S a b → S b a) → (∀ a b, S a b → g.HasEdge a b) → Closed2 S →
        ∀ a b, S a b → g'.HasEdge a b := by
  induction fuel with
  | zero => intro n g _ hlt; omega
  | succ fuel ih =>
    intro n g h hlt
    unfold G.cullLoop
    dsimp only
    by_cases hz : (iter n g.edges).filter g.isOpen = []
    · rw [if_pos hz]
      refine ⟨g, rfl, h, fun _ _ h => h, ?_, fun S _ hS _ a b hab => hS a b hab⟩
      intro v hv hlen
      obtain ⟨w, hw⟩ := List.exists_mem_of_ne_nil _ (h.noIsolated v hv)
      have he := (h.adjacent v w).1 ⟨hv, hw⟩
      rw [List.filter_eq_nil_iff] at hz
      rcases he with he | he
      · exact hz _ ((hiter n g.edges).mem_iff.2 he) (by simp [G.isOpen, hlen])
      · exact hz _ ((hiter n g.edges).mem_iff.2 he) (by simp [G.isOpen, hlen])
    · rw [if_neg hz]
      have hmem : ∀ e ∈ (iter n g.edges).filter g.isOpen, e ∈ g.edges ∧ g.isOpen e = true := by
        intro e he
        rw [List.mem_filter] at he
        exact ⟨(hiter n g.edges).mem_iff.1 he.1, he.2⟩
      have hsymm : ∀ {e f : V × V}, ¬ IsEdge e f.1 f.2 → ¬ IsEdge f e.1 e.2 := by
        intro e f hn hie
        apply hn
        rcases hie with ⟨h1, h2⟩ | ⟨h1, h2⟩
        · exact Or.inl ⟨h1.symm, h2.symm⟩
        · exact Or.inr ⟨h2.symm, h1.symm⟩
      obtain ⟨g1, h1, h2, h3, h4⟩ := removeAll_spec h ((iter n g.edges).filter g.isOpen)
        (fun e he => Or.inl (hmem e he).1)
        (((hiter n g.edges).symm.pairwise h.distinct (fun h => hsymm h)).filter _)
      rw [h1]
      dsimp only
      have hpos : 0 < ((iter n g.edges).filter g.isOpen).length := List.length_pos_of_ne_nil hz
      obtain ⟨g', h5, h6, h7, h8, h9⟩ := ih (n + 1) h2 (by omega)
      refine ⟨g', h5, h6, fun x y hxy => ((h3 x y).1 (h7 x y hxy)).1, h8, ?_⟩
      intro S hsym hS hc a b hab
      refine h9 S hsym ?_ hc a b hab
      intro x y hxy
      rw [h3]
      refine ⟨hS x y hxy, ?_⟩
      intro e he
      exact open_not_core h (Or.inl (hmem e he).1) (hmem e he).2 S hsym hS hc x y hxy

/-- **C66**: for every well-formed graph and every order in which the sets are iterated, `cull_open_edges` terminates (within as
many rounds as there are edges, plus one) without an exception; the result is a well-formed subgraph without nodes of degree
one, and contains every subgraph all of whose nodes have at least two neighbours. -/
theorem C66_cull (env : GEnv V) (iter : Nat → List (V × V) → List (V × V)) (hiter : ∀ n l, (iter n l).Perm l)
    (korder : List V → List V) {g : G V} (h : g.WF) (fuel : Nat) (hf : g.edges.length < fuel) :
    ∃ g', g.cull env iter korder fuel = some (.ok g') ∧ g'.WF ∧ (∀ x y, g'.HasEdge x y → g.HasEdge x y) ∧
      (∀ v ∈ g'.keys, (g'.adj v).length ≠ 1) ∧
      ∀ S : V → V → Prop, (∀ a b, S a b → S b a) → (∀ a b, S a b → g.HasEdge a b) → Closed2 S →
        ∀ a b, S a b → g'.HasEdge a b := by
  obtain ⟨g', h1, h2, h3, h4, h5⟩ := cullLoop_spec iter hiter fuel 0 h hf
  refine ⟨{ g' with bottom := findBottom env (korder g'.keys) }, ?_, ?_, h3, h4, h5⟩
  · unfold G.cull; rw [h1]; rfl
  · exact ⟨h2.adjacent, h2.simple, h2.distinct, h2.keysNodup, h2.adjNodup, h2.noIsolated, h2.handshake⟩

/-- **C66**: the result does not depend on the iteration orders. -/
theorem C66_order_independent (env : GEnv V) (iter iter' : Nat → List (V × V) → List (V × V))
    (hiter : ∀ n l, (iter n l).Perm l) (hiter' : ∀ n l, (iter' n l).Perm l) (korder korder' : List V → List V)
    {g : G V} (h : g.WF) (fuel fuel' : Nat) (hf : g.edges.length < fuel) (hf' : g.edges.length < fuel') :
    ∃ g1 g2, g.cull env iter korder fuel = some (.ok g1) ∧ g.cull env iter' korder' fuel' = some (.ok g2) ∧
      ∀ a b, g1.HasEdge a b ↔ g2.HasEdge a b := by
  obtain ⟨g1, h1, w1, s1, d1, m1⟩ := C66_cull env iter hiter korder h fuel hf
  obtain ⟨g2, h2, w2, s2, d2, m2⟩ := C66_cull env iter' hiter' korder' h fuel' hf'
  have closed : ∀ {g' : G V}, g'.WF → (∀ v ∈ g'.keys, (g'.adj v).length ≠ 1) → Closed2 g'.HasEdge := by
    intro g' w d a b hab
    obtain ⟨hk, hb⟩ := (w.adjacent a b).2 hab
    by_contra hcon
    push Not at hcon
    apply d a hk
    have : g'.adj a = [b] := by
      have hall : ∀ c ∈ g'.adj a, c = b := by
        intro c hc
        by_contra hne
        exact hcon c hne ((w.adjacent a c).1 ⟨hk, hc⟩)
      have hnd := w.adjNodup a hk
      match hl : g'.adj a with
      | [] => rw [hl] at hb; cases hb
      | [x] => rw [hl] at hall; rw [hall x (by simp)]
      | x :: y :: l =>
        rw [hl] at hall hnd
        have e1 := hall x (by simp)
        have e2 := hall y (by simp)
        rw [e1, e2] at hnd
        simp at hnd
    rw [this]; rfl
  refine ⟨g1, g2, h1, h2, fun a b => ⟨?_, ?_⟩⟩
  · exact fun hab => m2 _ (fun _ _ h => HasEdge.symm h) s1 (closed w1 d1) a b hab
  · exact fun hab => m1 _ (fun _ _ h => HasEdge.symm h) s2 (closed w2 d2) a b hab

/-- Non-vacuity: the tail of the demonstration graph is culled, the triangle stays. -/
example : (((G.empty.run envN demoOps).cull envN (fun _ l => l) id 6).map fun r => r.map fun g => (g.edges, g.keys, g.bottom))
    = some (.ok ([(1, 2), (2, 3), (3, 1)], [1, 2, 3], .node 1)) := by decide +kernel

end Verif.Graph
