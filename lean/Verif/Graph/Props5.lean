import Verif.Graph.Peel
import Verif.Graph.Props4
import Verif.Geom.Polygon

/-!
# C159: peeling the boundary of a graph
-/

set_option linter.unusedSectionVars false

namespace Verif.Graph
open Verif

variable {V : Type} [DecidableEq V]

/-! ## Specification -/

/-- Specification: the neighbours of a node among the nodes `S`, in the order of the graph (counter-clockwise). -/
def neighboursIn (g : G V) (S : List V) (v : V) : List V := (g.adj v).filter fun w => w ∈ S

/-- Specification: `S'` is the largest part of `S` of nodes for which `ok` holds and that have at least two neighbours in it. -/
def IsCore (g : G V) (ok : V → Prop) (S S' : List V) : Prop :=
  (∀ v ∈ S', v ∈ S ∧ ok v ∧ 2 ≤ (neighboursIn g S' v).length) ∧
  ∀ T : List V, (∀ v ∈ T, v ∈ S ∧ ok v ∧ 2 ≤ (neighboursIn g T v).length) → ∀ v ∈ T, v ∈ S'

/-- Specification: the node is inside the polygon and not a corner of it; an empty polygon excludes nothing. -/
def StrictlyIn (inside : List V → V → Bool) (poly : List V) (v : V) : Prop := poly ≠ [] → inside poly v = true ∧ v ∉ poly

/-- Specification: the way round the nodes `S` from a lowest one, taking the leftmost way on at every node, until it is back at the start or has made as many steps as there are nodes. -/
def IsRim {R : Type} [LinearOrder R] (g : G V) (y : V → R) (S : List V) (p : List V) : Prop :=
  ∃ v rest, p = v :: rest ∧ v ∈ S ∧ (∀ w ∈ S, y v ≤ y w) ∧ (∀ w ∈ p, w ∈ S) ∧ p.IsChain (fun a b => b ∈ g.adj a) ∧
    rest.head? = (neighboursIn g S v).getLast? ∧ (∀ l₁ a b c l₂, p = l₁ ++ a :: b :: c :: l₂ → JustBefore (neighboursIn g S b) a c) ∧
    ((rest.getLast? = some v ∧ v ∉ rest.dropLast ∧ rest.length ≤ S.length) ∨ (v ∉ rest ∧ rest.length = S.length))

/-- Specification: the polygons got by peeling: each is the rim of what is left, and what is left after it is the largest part strictly inside it without dead ends; as long as more than three nodes are left. -/
inductive Layers {R : Type} [LinearOrder R] (g : G V) (y : V → R) (inside : List V → V → Bool) : List V → List V → List (List V) → Prop
  | stop {S poly : List V} : ¬ (3 < S.length ∧ 3 < poly.length) → Layers g y inside S poly []
  | peel {S S' poly p : List V} {ps : List (List V)} : 3 < S.length → 3 < poly.length → IsRim g y S p → IsCore g (StrictlyIn inside p) S S' → S'.Nodup →
      Layers g y inside S' p ps → Layers g y inside S poly (p :: ps)

/-! ## Removing nodes -/

/-- The neighbours are mutual, and no node is its own. -/
structure Mutual (g : G V) : Prop where
  sym : ∀ a ∈ g.keys, ∀ b ∈ g.adj a, b ∈ g.keys ∧ a ∈ g.adj b ∧ a ≠ b
  nodup : ∀ a ∈ g.keys, (g.adj a).Nodup

/-- The node map is the graph `g0` restricted to some of its nodes. -/
structure Restr (g0 g : G V) : Prop where
  sub : ∀ v ∈ g.keys, v ∈ g0.keys
  nodup : g.keys.Nodup
  adj : ∀ v ∈ g.keys, g.adj v = neighboursIn g0 g.keys v

/-- The same while node `v` is being removed; `ws`: the neighbours still to be handled. -/
structure Removing (g0 : G V) (v : V) (ws : List V) (g : G V) : Prop where
  sub : ∀ u ∈ g.keys, u ∈ g0.keys
  nodup : g.keys.Nodup
  mem : v ∈ g.keys
  adj : ∀ u ∈ g.keys, u ≠ v → g.adj u = (neighboursIn g0 g.keys u).filter fun x => decide (x ≠ v ∨ u ∈ ws)
  nbs : ∀ w ∈ ws, w ∈ g0.adj v
  wsn : ws.Nodup

/-- A set of nodes, none of them `v`, that each have a neighbour in it. -/
def Alive (g0 : G V) (v : V) (T : List V) : Prop := ∀ t ∈ T, t ≠ v ∧ neighboursIn g0 T t ≠ []

theorem mem_neighboursIn {g : G V} {S : List V} {v w : V} : w ∈ neighboursIn g S v ↔ w ∈ g.adj v ∧ w ∈ S := by
  unfold neighboursIn
  simp

theorem unlinkFrom_spec {g0 : G V} (h0 : Mutual g0) (v : V) : ∀ (ws : List V) (g : G V), Removing g0 v ws g →
    ∃ g', unlinkFrom v ws g = .ok g' ∧ Removing g0 v [] g' ∧ (∀ u ∈ g'.keys, u ∈ g.keys) ∧
      ∀ T, Alive g0 v T → (∀ t ∈ T, t ∈ g.keys) → ∀ t ∈ T, t ∈ g'.keys := by
  intro ws
  induction ws with
  | nil => intro g h; exact ⟨g, rfl, h, fun u hu => hu, fun T _ hT => hT⟩
  | cons w ws ih =>
    intro g h
    have hwv : w ≠ v := by
      rintro rfl
      exact (h0.sym w (h.sub _ h.mem) w (h.nbs _ (by simp))).2.2 rfl
    have hwn := List.nodup_cons.1 h.wsn
    unfold unlinkFrom
    by_cases hw : w ∈ g.keys
    · rw [if_pos hw]
      have hadj := h.adj w hw hwv
      have hvw : v ∈ g.adj w := by
        rw [hadj]
        refine List.mem_filter.2 ⟨mem_neighboursIn.2 ⟨(h0.sym v (h.sub _ h.mem) w (h.nbs _ (by simp))).2.1, h.mem⟩, ?_⟩
        simp
      have hnod : (g.adj w).Nodup := by
        rw [hadj]
        exact ((h0.nodup w (h.sub w hw)).filter _).filter _
      have hnew : (g.adj w).erase v = (neighboursIn g0 g.keys w).filter fun x => decide (x ≠ v) := by
        rw [hnod.erase_eq_filter, hadj, List.filter_filter]
        apply List.filter_congr
        intro x _
        by_cases hx : x = v <;> simp [hx]
      -- the map after `remove`
      have hmid : Removing g0 v ws ({ g with adj := Function.update g.adj w ((g.adj w).erase v) } : G V) := by
        refine ⟨h.sub, h.nodup, h.mem, ?_, fun x hx => h.nbs x (by simp [hx]), hwn.2⟩
        intro u hu huv
        by_cases huw : u = w
        · subst huw
          simp only [Function.update_self]
          rw [hnew]
          apply List.filter_congr
          intro x _
          simp [hwn.1]
        · simp only [Function.update_of_ne huw]
          rw [h.adj u hu huv]
          apply List.filter_congr
          intro x _
          simp [huw]
      simp only [G.unlink, if_pos hvw, bind, Except.bind]
      unfold G.dropIfIsolated
      simp only [Function.update_self]
      by_cases he : (g.adj w).erase v = []
      · rw [if_pos he, if_pos hw]
        have hdrop : Removing g0 v ws ({ g with adj := Function.update g.adj w ((g.adj w).erase v), keys := g.keys.erase w } : G V) := by
          have hm : ∀ x, x ∈ g.keys.erase w ↔ x ≠ w ∧ x ∈ g.keys := fun x => h.nodup.mem_erase_iff
          refine ⟨fun u hu => h.sub u ((hm u).1 hu).2, h.nodup.erase _, (hm v).2 ⟨hwv.symm, h.mem⟩, ?_, hmid.nbs, hmid.wsn⟩
          intro u hu huv
          obtain ⟨huw, huk⟩ := (hm u).1 hu
          rw [hmid.adj u huk huv]
          congr 1
          unfold neighboursIn
          apply List.filter_congr
          intro x hx
          have : x = w → x ∉ g.keys := by
            rintro rfl _
            have h1 : u ∈ g0.adj x := (h0.sym u (h.sub u huk) x hx).2.1
            have h2 : u ∈ (g.adj x).erase v := by
              rw [hnew]
              exact List.mem_filter.2 ⟨mem_neighboursIn.2 ⟨h1, huk⟩, by simpa using huv⟩
            rw [he] at h2
            simp at h2
          simp only [hm, decide_eq_decide]
          tauto
        obtain ⟨g', r1, r2, r3, r4⟩ := ih _ hdrop
        refine ⟨g', r1, r2, fun u hu => List.mem_of_mem_erase (r3 u hu), ?_⟩
        intro T hT hTk
        refine r4 T hT ?_
        intro t ht
        refine (h.nodup.mem_erase_iff).2 ⟨?_, hTk t ht⟩
        rintro rfl
        obtain ⟨x, hx⟩ := List.exists_mem_of_ne_nil _ (hT t ht).2
        rw [mem_neighboursIn] at hx
        have h2 : x ∈ (g.adj t).erase v := by
          rw [hnew]
          exact List.mem_filter.2 ⟨mem_neighboursIn.2 ⟨hx.1, hTk x hx.2⟩, by simpa using (hT x hx.2).1⟩
        rw [he] at h2
        simp at h2
      · rw [if_neg he]
        exact ih _ hmid
    · rw [if_neg hw]
      refine ih g ⟨h.sub, h.nodup, h.mem, ?_, fun x hx => h.nbs x (by simp [hx]), hwn.2⟩
      intro u hu huv
      rw [h.adj u hu huv]
      apply List.filter_congr
      intro x _
      have : u ≠ w := by rintro rfl; exact hw hu
      simp [this]

theorem removeNode_spec {g0 : G V} (h0 : Mutual g0) {g : G V} (h : Restr g0 g) (v : V) :
    ∃ g', removeNode g v = .ok g' ∧ Restr g0 g' ∧ (∀ u ∈ g'.keys, u ∈ g.keys ∧ u ≠ v) ∧
      ∀ T, Alive g0 v T → (∀ t ∈ T, t ∈ g.keys) → ∀ t ∈ T, t ∈ g'.keys := by
  unfold removeNode
  by_cases hv : v ∈ g.keys
  · rw [if_pos hv]
    have hadj := h.adj v hv
    have hr : Removing g0 v (g.adj v) g := by
      refine ⟨h.sub, h.nodup, hv, ?_, ?_, ?_⟩
      · intro u hu huv
        rw [h.adj u hu]
        conv_lhs => rw [← List.filter_true (neighboursIn g0 g.keys u)]
        apply List.filter_congr
        intro x hx
        rw [mem_neighboursIn] at hx
        by_cases hxv : x = v
        · subst hxv
          have : u ∈ g.adj x := by rw [hadj, mem_neighboursIn]; exact ⟨(h0.sym u (h.sub u hu) x hx.1).2.1, hu⟩
          simp [this]
        · simp [hxv]
      · intro w hw
        rw [hadj, mem_neighboursIn] at hw
        exact hw.1
      · rw [hadj]; exact (h0.nodup v (h.sub v hv)).filter _
    obtain ⟨g', r1, r2, r3, r4⟩ := unlinkFrom_spec h0 v (g.adj v) g hr
    have hm : ∀ x, x ∈ g'.keys.erase v ↔ x ≠ v ∧ x ∈ g'.keys := fun x => r2.nodup.mem_erase_iff
    refine ⟨{ g' with keys := g'.keys.erase v }, ?_, ⟨fun u hu => r2.sub u ((hm u).1 hu).2, r2.nodup.erase _, ?_⟩, fun u hu => ⟨r3 u ((hm u).1 hu).2, ((hm u).1 hu).1⟩, ?_⟩
    · simp only [r1, bind, Except.bind, if_pos r2.mem]
    · intro u hu
      obtain ⟨huv, huk⟩ := (hm u).1 hu
      change g'.adj u = _
      rw [r2.adj u huk huv]
      unfold neighboursIn
      rw [List.filter_filter]
      apply List.filter_congr
      intro x _
      simp [hm]
    · intro T hT hTk t ht
      exact (hm t).2 ⟨(hT t ht).1, r4 T hT hTk t ht⟩
  · rw [if_neg hv]
    exact ⟨g, rfl, h, fun u hu => ⟨hu, by rintro rfl; exact hv hu⟩, fun T _ hT => hT⟩

theorem removeNodes_spec {g0 : G V} (h0 : Mutual g0) : ∀ (vs : List V) {g : G V}, Restr g0 g →
    ∃ g', removeNodes vs g = .ok g' ∧ Restr g0 g' ∧ (∀ u ∈ g'.keys, u ∈ g.keys ∧ u ∉ vs) ∧
      ∀ T, (∀ t ∈ T, t ∉ vs ∧ neighboursIn g0 T t ≠ []) → (∀ t ∈ T, t ∈ g.keys) → ∀ t ∈ T, t ∈ g'.keys := by
  intro vs
  induction vs with
  | nil => intro g h; exact ⟨g, rfl, h, fun u hu => ⟨hu, by simp⟩, fun T _ hT => hT⟩
  | cons v vs ih =>
    intro g h
    obtain ⟨g1, a1, a2, a3, a4⟩ := removeNode_spec h0 h v
    obtain ⟨g2, b1, b2, b3, b4⟩ := ih a2
    refine ⟨g2, ?_, b2, ?_, ?_⟩
    · unfold removeNodes
      simp only [a1, bind, Except.bind, b1]
    · intro u hu
      obtain ⟨c1, c2⟩ := b3 u hu
      obtain ⟨c3, c4⟩ := a3 u c1
      exact ⟨c3, by simp [c4, c2]⟩
    · intro T hT hTk
      refine b4 T (fun t ht => ⟨fun e => (hT t ht).1 (by simp [e]), (hT t ht).2⟩) (a4 T (fun t ht => ⟨?_, (hT t ht).2⟩) hTk)
      rintro rfl
      exact (hT t ht).1 (by simp)

/-! ## Pruning -/

theorem pruneDeadEnds_spec {g0 : G V} (h0 : Mutual g0) (iter : Nat → List V → List V) (hit : ∀ n l, (iter n l).Perm l) : ∀ (fuel n : Nat) (g : G V), Restr g0 g → g.keys.length < fuel →
    ∃ g', pruneDeadEnds iter fuel n g = some (.ok g') ∧ Restr g0 g' ∧ IsCore g0 (fun _ => True) g.keys g'.keys := by
  intro fuel
  induction fuel with
  | zero => intro n g _ hf; omega
  | succ fuel ih =>
    intro n g h hf
    unfold pruneDeadEnds
    dsimp only
    by_cases hd : (iter n g.keys).filter (fun v => (g.adj v).length < 2) = []
    · rw [if_pos hd]
      refine ⟨g, rfl, h, ?_, fun T hT v hv => (hT v hv).1⟩
      intro v hv
      refine ⟨hv, trivial, ?_⟩
      rw [← h.adj v hv]
      have := List.filter_eq_nil_iff.1 hd v ((hit n g.keys).mem_iff.2 hv)
      have : 1 < (g.adj v).length := by simpa using this
      omega
    · rw [if_neg hd]
      obtain ⟨g1, a1, a2, a3, a4⟩ := removeNodes_spec h0 ((iter n g.keys).filter (fun v => (g.adj v).length < 2)) h
      rw [a1]
      have hlt : g1.keys.length < g.keys.length := by
        obtain ⟨v, hv⟩ := List.exists_mem_of_ne_nil _ hd
        have hvk : v ∈ g.keys := (hit n g.keys).mem_iff.1 (List.mem_filter.1 hv).1
        have hsub : g1.keys ⊆ g.keys.erase v := by
          intro u hu
          refine h.nodup.mem_erase_iff.2 ⟨?_, (a3 u hu).1⟩
          rintro rfl
          exact (a3 u hu).2 hv
        have := (a2.nodup.subperm hsub).length_le
        rw [List.length_erase_of_mem hvk] at this
        have := List.length_pos_of_mem hvk
        omega
      obtain ⟨g2, b1, b2, b3, b4⟩ := ih (n + 1) g1 a2 (by omega)
      refine ⟨g2, b1, b2, ?_, ?_⟩
      · intro v hv
        obtain ⟨c1, -, c3⟩ := b3 v hv
        exact ⟨(a3 v c1).1, trivial, c3⟩
      · intro T hT
        have hk : ∀ t ∈ T, t ∈ g1.keys := by
          refine a4 T ?_ fun t ht => (hT t ht).1
          intro t ht
          obtain ⟨c1, -, c3⟩ := hT t ht
          refine ⟨?_, by rintro e; rw [e] at c3; simp at c3⟩
          intro hm
          have h1 := (List.mem_filter.1 hm).2
          simp only [decide_eq_true_eq] at h1
          rw [h.adj t c1] at h1
          have hsub : (neighboursIn g0 T t).Sublist (neighboursIn g0 g.keys t) := by
            unfold neighboursIn
            refine List.monotone_filter_right _ ?_
            intro x hx
            simp only [decide_eq_true_eq] at hx ⊢
            exact (hT x hx).1
          have := hsub.length_le
          omega
        exact b4 T fun t ht => ⟨hk t ht, trivial, (hT t ht).2.2⟩

theorem pruneNodes_spec {g0 : G V} (h0 : Mutual g0) (iter : Nat → List V → List V) (hit : ∀ n l, (iter n l).Perm l) (inside : List V → V → Bool) (fuel : Nat) (poly : List V) {g : G V}
    (h : Restr g0 g) (hf : g.keys.length < fuel) :
    ∃ g', pruneNodes iter inside fuel poly g = some (.ok g') ∧ Restr g0 g' ∧ IsCore g0 (StrictlyIn inside poly) g.keys g'.keys := by
  unfold pruneNodes prunePoly
  by_cases hp : poly = []
  · rw [if_pos hp]
    obtain ⟨g', a1, a2, a3, a4⟩ := pruneDeadEnds_spec h0 iter hit fuel 1 g h hf
    refine ⟨g', a1, a2, fun v hv => ⟨(a3 v hv).1, fun hne => absurd hp hne, (a3 v hv).2.2⟩, fun T hT => a4 T fun t ht => ⟨(hT t ht).1, trivial, (hT t ht).2.2⟩⟩
  · rw [if_neg hp]
    obtain ⟨g1, a1, a2, a3, a4⟩ := removeNodes_spec h0 ((iter 0 g.keys).filter fun v => !inside poly v) h
    obtain ⟨g2, b1, b2, b3, b4⟩ := removeNodes_spec h0 poly a2
    have hlen : g2.keys.length < fuel := by
      have hsub : g2.keys ⊆ g.keys := fun u hu => (a3 u (b3 u hu).1).1
      have := (b2.nodup.subperm hsub).length_le
      omega
    obtain ⟨g3, c1, c2, c3, c4⟩ := pruneDeadEnds_spec h0 iter hit fuel 1 g2 b2 hlen
    refine ⟨g3, ?_, c2, ?_, ?_⟩
    · simp only [a1, b1, bind, Except.bind, c1]
    · intro v hv
      obtain ⟨d1, -, d3⟩ := c3 v hv
      obtain ⟨e1, e2⟩ := b3 v d1
      obtain ⟨f1, f2⟩ := a3 v e1
      refine ⟨f1, fun _ => ⟨?_, e2⟩, d3⟩
      by_contra hin
      exact f2 (List.mem_filter.2 ⟨(hit 0 g.keys).mem_iff.2 f1, by simpa using hin⟩)
    · intro T hT
      have hne : ∀ t ∈ T, neighboursIn g0 T t ≠ [] := by
        intro t ht e
        have := (hT t ht).2.2
        rw [e] at this
        simp at this
      have k1 : ∀ t ∈ T, t ∈ g1.keys := by
        refine a4 T (fun t ht => ⟨?_, hne t ht⟩) fun t ht => (hT t ht).1
        intro hm
        have := (List.mem_filter.1 hm).2
        rw [((hT t ht).2.1 hp).1] at this
        simp at this
      have k2 := b4 T (fun t ht => ⟨((hT t ht).2.1 hp).2, hne t ht⟩) k1
      exact c4 T fun t ht => ⟨k2 t ht, trivial, (hT t ht).2.2⟩

/-! ## The rim -/

theorem Restr.mutual {g0 : G V} (h0 : Mutual g0) {g : G V} (h : Restr g0 g) : Mutual g := by
  refine ⟨?_, ?_⟩
  · intro a ha b hb
    rw [h.adj a ha, mem_neighboursIn] at hb
    obtain ⟨-, h2, h3⟩ := h0.sym a (h.sub a ha) b hb.1
    refine ⟨hb.2, ?_, h3⟩
    rw [h.adj b hb.2, mem_neighboursIn]
    exact ⟨h2, ha⟩
  · intro a ha
    rw [h.adj a ha]
    exact (h0.nodup a (h.sub a ha)).filter _

theorem mutual_next {g : G V} (h : Mutual g) (hd : NoDeadEnds g) {a b : V} (hb : b ∈ g.keys) (ha : a ∈ g.adj b) :
    ∃ c, ccwEdgeNode g b a = .ok c ∧ before (g.adj b) a = some c ∧ c ∈ g.adj b ∧ c ≠ a ∧ JustBefore (g.adj b) a c := by
  obtain ⟨c, h1, h2, h3, h4⟩ := before_spec (h.nodup b hb) ha (hd b hb)
  refine ⟨c, ?_, h1, h2, h3, h4⟩
  have hh := before_head ha h1
  have hn := hd c (h.sym b hb c h2).1
  unfold ccwEdgeNode
  rw [if_pos ha]
  cases hl : ((g.adj b).take ((g.adj b).idxOf a)).reverse ++ ((g.adj b).drop ((g.adj b).idxOf a)).reverse with
  | nil => rw [hl] at hh; simp at hh
  | cons v l =>
    rw [hl] at hh
    simp only [List.head?_cons, Option.some.injEq] at hh
    subst hh
    unfold skipSpikes
    rw [if_neg (by omega)]

theorem mutual_turning {g : G V} (h : Mutual g) (hd : NoDeadEnds g) : ∀ (l : List V) (p c : V), c ∈ g.keys → p ∈ g.adj c → Turning g p c l →
    ∀ l₁ x y z l₂, p :: c :: l = l₁ ++ x :: y :: z :: l₂ → JustBefore (g.adj y) x z ∧ z ≠ x := by
  intro l
  induction l with
  | nil =>
    intro p c _ _ _ l₁ x y z l₂ e
    have := congrArg List.length e
    simp at this
    omega
  | cons n l ih =>
    intro p c hc hp ht l₁ x y z l₂ e
    obtain ⟨n', -, hn, hcn, hne, hj⟩ := mutual_next h hd hc hp
    obtain ⟨h1, h2⟩ := ht
    rw [h1] at hn
    cases hn
    obtain ⟨k1, k2, -⟩ := h.sym c hc n hcn
    cases l₁ with
    | nil =>
      simp only [List.nil_append, List.cons.injEq] at e
      obtain ⟨rfl, rfl, rfl, rfl⟩ := e
      exact ⟨hj, hne⟩
    | cons w l₁ =>
      simp only [List.cons_append, List.cons.injEq] at e
      exact ih c n k1 k2 h2 l₁ x y z l₂ e.2

theorem mutual_walk {g : G V} (h : Mutual g) (hd : NoDeadEnds g) (s : V) (n : Nat) : ∀ (p c : V), c ∈ g.keys → p ∈ g.adj c →
    ∃ rest, boundaryWalk g s n p c = .ok rest ∧ Turning g p c rest ∧ (c :: rest).IsChain (fun a b => b ∈ g.adj a) ∧ (∀ w ∈ rest, w ∈ g.keys) ∧
      ((rest.getLast? = some s ∧ s ∉ rest.dropLast ∧ rest.length ≤ n) ∨ (s ∉ rest ∧ rest.length = n)) := by
  induction n with
  | zero => intro p c _ _; exact ⟨[], rfl, trivial, by simp, by simp, Or.inr (by simp)⟩
  | succ n ih =>
    intro p c hc hp
    obtain ⟨x, h1, h2, h3, -, -⟩ := mutual_next h hd hc hp
    obtain ⟨k1, k2, -⟩ := h.sym c hc x h3
    have hdx := hd x k1
    unfold boundaryWalk
    rw [h1]
    by_cases hx : x = s
    · subst hx
      refine ⟨[x], ?_, ⟨h2, trivial⟩, by simpa using h3, by simpa using k1, Or.inl (by simp)⟩
      simp only [bind, Except.bind, pure, Except.pure, if_pos, if_pos (show 1 < (g.adj x).length by omega)]
    · obtain ⟨rest, g1, g2, g3, g5, g4⟩ := ih c x k1 k2
      refine ⟨x :: rest, ?_, ⟨h2, g2⟩, ?_, ?_, ?_⟩
      · simp only [bind, Except.bind, pure, Except.pure, if_neg hx, g1, if_pos (show 1 < (g.adj x).length by omega)]
      · rw [List.isChain_cons_cons]; exact ⟨h3, g3⟩
      · intro w hw
        rcases List.mem_cons.1 hw with rfl | hw
        · exact k1
        · exact g5 w hw
      · rcases g4 with ⟨k1, k2, k3⟩ | ⟨k1, k2⟩
        · refine Or.inl ⟨?_, ?_, by simpa using k3⟩
          · rw [List.getLast?_cons, k1]; rfl
          · rw [List.dropLast_cons_of_ne_nil (by rintro rfl; simp at k1)]
            simp only [List.mem_cons, not_or]
            exact ⟨fun e => hx e.symm, k2⟩
        · refine Or.inr ⟨?_, by simp [k2]⟩
          simp only [List.mem_cons, not_or]
          exact ⟨fun e => hx e.symm, k1⟩

theorem findBottom_spec {R : Type} [LinearOrder R] (env : GEnv V) (y : V → R) (hy : ∀ a b, env.yLt a b = decide (y a < y b)) : ∀ l : List V, l ≠ [] →
    ∃ v, findBottom env l = .node v ∧ v ∈ l ∧ ∀ w ∈ l, y v ≤ y w := by
  have key : ∀ (l : List V) (b : V), ∃ v, l.foldl (fun b w => if env.yLt w b then w else b) b = v ∧ v ∈ b :: l ∧ ∀ w ∈ b :: l, y v ≤ y w := by
    intro l
    induction l with
    | nil => intro b; exact ⟨b, rfl, by simp, by simp⟩
    | cons a l ih =>
      intro b
      rw [List.foldl_cons, hy]
      by_cases hab : y a < y b
      · simp only [hab, decide_true, if_true]
        obtain ⟨v, h1, h2, h3⟩ := ih a
        refine ⟨v, h1, List.mem_cons_of_mem _ h2, ?_⟩
        intro w hw
        rcases List.mem_cons.1 hw with rfl | hw
        · exact (h3 a (by simp)).trans hab.le
        · exact h3 w hw
      · simp only [hab, decide_false]
        obtain ⟨v, h1, h2, h3⟩ := ih b
        refine ⟨v, h1, ?_, ?_⟩
        · simp only [List.mem_cons] at h2 ⊢
          tauto
        · intro w hw
          simp only [List.mem_cons] at hw
          rcases hw with rfl | rfl | hw
          · exact h3 w (by simp)
          · exact (h3 b (by simp)).trans (not_lt.1 hab)
          · exact h3 w (by simp [hw])
  intro l hl
  cases l with
  | nil => exact absurd rfl hl
  | cons b l =>
    obtain ⟨v, h1, h2, h3⟩ := key l b
    exact ⟨v, by simp only [findBottom, h1], h2, h3⟩

theorem rim_spec {R : Type} [LinearOrder R] {g0 : G V} (h0 : Mutual g0) {g : G V} (h : Restr g0 g) (hd : NoDeadEnds g) (y : V → R) {v : V} (hv : v ∈ g.keys)
    (hlow : ∀ w ∈ g.keys, y v ≤ y w) (h3 : 3 < g.keys.length) :
    ∃ p, buildBoundary g v g.keys.length = .ok p ∧ IsRim g0 y g.keys p ∧ 3 < p.length ∧ v ∈ p := by
  have hm := h.mutual h0
  have hdv := hd v hv
  unfold buildBoundary
  cases ha : g.adj v with
  | nil => rw [ha] at hdv; simp at hdv
  | cons p l =>
    cases l with
    | nil => rw [ha] at hdv; simp at hdv
    | cons p' l =>
      dsimp only
      have hpv : p ∈ g.adj v := by rw [ha]; simp
      obtain ⟨rest, g1, g2, g3, g5, g4⟩ := mutual_walk hm hd v g.keys.length p v hv hpv
      have hturn : ∀ l₁ a b c l₂, v :: rest = l₁ ++ a :: b :: c :: l₂ → JustBefore (g.adj b) a c ∧ c ≠ a := fun l₁ a b c l₂ e =>
        mutual_turning hm hd rest p v hv hpv g2 (p :: l₁) a b c l₂ (by rw [e]; rfl)
      have hkeys : ∀ w ∈ v :: rest, w ∈ g.keys := by
        intro w hw
        rcases List.mem_cons.1 hw with rfl | hw
        · exact hv
        · exact g5 w hw
      refine ⟨v :: rest, by rw [g1]; rfl, ⟨v, rest, rfl, hv, hlow, hkeys, ?_, ?_, ?_, g4⟩, ?_, by simp⟩
      · have hch : ∀ (l : List V), (∀ w ∈ l, w ∈ g.keys) → l.IsChain (fun a b => b ∈ g.adj a) → l.IsChain (fun a b => b ∈ g0.adj a) := by
          intro l
          induction l with
          | nil => intro _ _; simp
          | cons a l ih =>
            intro hk hc
            cases l with
            | nil => simp
            | cons b l =>
              rw [List.isChain_cons_cons] at hc ⊢
              refine ⟨?_, ih (fun w hw => hk w (List.mem_cons_of_mem _ hw)) hc.2⟩
              have := hc.1
              rw [h.adj a (hk a (by simp)), mem_neighboursIn] at this
              exact this.1
        exact hch _ hkeys g3
      · rw [← h.adj v hv]
        cases rest with
        | nil =>
          simp at g4
          omega
        | cons x rest =>
          have := g2.1
          rw [ha] at this ⊢
          unfold before at this
          rw [if_pos (by simp)] at this
          simp only [List.idxOf_cons_self, Nat.zero_add] at this
          rw [Nat.mod_eq_of_lt (by simp)] at this
          rw [List.getLast?_eq_getElem?, this]
          rfl
      · intro l₁ a b c l₂ e
        have := (hturn l₁ a b c l₂ e).1
        rwa [h.adj b (hkeys b (by rw [e]; simp))] at this
      · rcases g4 with ⟨e1, e2, e3⟩ | ⟨-, e2⟩
        · cases rest with
          | nil => simp at e1
          | cons a rest =>
            have hav : a ≠ v := by
              rintro rfl
              have := (List.isChain_cons_cons.1 g3).1
              exact (hm.sym a hv a this).2.2 rfl
            cases rest with
            | nil => simp at e1; exact absurd e1 hav
            | cons b rest =>
              cases rest with
              | nil =>
                simp at e1
                exact absurd e1 (hturn [] v a b [] rfl).2
              | cons c rest => simp
        · simp only [List.length_cons]; omega

/-! ## Peeling -/

theorem peelLoop_spec {R : Type} [LinearOrder R] (env : GEnv V) (y : V → R) (hy : ∀ a b, env.yLt a b = decide (y a < y b)) {g0 : G V} (h0 : Mutual g0)
    (iters : Nat → Nat → List V → List V) (hit : ∀ k n l, (iters k n l).Perm l) (inside : List V → V → Bool) (pfuel : Nat) : ∀ (fuel k : Nat) (poly : List V) (g : G V),
    Restr g0 g → NoDeadEnds g → g.keys.length < fuel → g.keys.length < pfuel →
    ∃ ps, peelLoop env iters inside pfuel fuel k poly g = some (.ok ps) ∧ Layers g0 y inside g.keys poly ps := by
  intro fuel
  induction fuel with
  | zero => intro k poly g _ _ hf; omega
  | succ fuel ih =>
    intro k poly g h hd hf hpf
    unfold peelLoop
    by_cases hc : 3 < g.keys.length ∧ 3 < poly.length
    · rw [if_pos hc]
      have hperm := hit k 0 g.keys
      obtain ⟨v, b1, b2, b3⟩ := findBottom_spec env y hy (iters k 0 g.keys) (by
        intro e
        have := hperm.length_eq
        rw [e] at this
        simp at this
        omega)
      rw [b1]
      dsimp only
      obtain ⟨p, r1, r2, r3, r4⟩ := rim_spec h0 h hd y (hperm.mem_iff.1 b2) (fun w hw => b3 w (hperm.mem_iff.2 hw)) hc.1
      rw [r1]
      dsimp only
      obtain ⟨g', p1, p2, p3⟩ := pruneNodes_spec h0 (fun n => iters k (n + 1)) (fun n l => hit k (n + 1) l) inside pfuel p h hpf
      rw [p1]
      dsimp only
      have hlt : g'.keys.length < g.keys.length := by
        have hvk := hperm.mem_iff.1 b2
        have hsub : g'.keys ⊆ g.keys.erase v := by
          intro u hu
          obtain ⟨q1, q2, -⟩ := p3.1 u hu
          refine h.nodup.mem_erase_iff.2 ⟨?_, q1⟩
          rintro rfl
          exact (q2 (by rintro rfl; simp at r4)).2 r4
        have := (p2.nodup.subperm hsub).length_le
        rw [List.length_erase_of_mem hvk] at this
        omega
      have hd' : NoDeadEnds g' := by
        intro u hu
        rw [p2.adj u hu]
        exact (p3.1 u hu).2.2
      obtain ⟨ps, l1, l2⟩ := ih (k + 1) p g' p2 hd' (by omega) (by omega)
      refine ⟨p :: ps, ?_, .peel hc.1 hc.2 r2 p3 p2.nodup l2⟩
      rw [l1]
      simp only [Option.map_some, Except.map, if_pos (show 2 < p.length by omega)]
    · rw [if_neg hc]
      exact ⟨[], rfl, .stop hc⟩

theorem wf_mutual {g : G V} (h : g.WF) : Mutual g := by
  refine ⟨?_, h.adjNodup⟩
  intro a ha b hb
  have he := (h.adjacent a b).1 ⟨ha, hb⟩
  have := (h.adjacent b a).2 he.symm
  exact ⟨this.1, this.2, hasEdge_ne h he⟩

/-- **C159 (what is peeled).**  For every graph, every polygon, every meaning of "inside" and all iteration orders `peel_boundary_polygon` ends without an exception.
First the largest part of the graph strictly inside the polygon without dead ends is left; then, as long as more than three nodes are left (and the polygon given has more than three vertices), the polygon
returned next is the rim of what is left, and what is left after it is the largest part strictly inside the rim without dead ends.
Not covered: parts that do not hang together (see the refutation). -/
theorem C159_peel_partial {R : Type} [LinearOrder R] (env : GEnv V) (y : V → R) (hy : ∀ a b, env.yLt a b = decide (y a < y b)) {g : G V} (hg : g.WF)
    (iters : Nat → Nat → List V → List V) (hit : ∀ k n l, (iters k n l).Perm l) (inside : List V → V → Bool) (poly : List V) (fuel : Nat) (hf : g.keys.length < fuel) :
    ∃ S ps, peelBoundary env iters inside fuel poly g = some (.ok ps) ∧ S.Nodup ∧ IsCore (g.query env) (StrictlyIn inside poly) g.keys S ∧ Layers (g.query env) y inside S poly ps := by
  obtain ⟨q1, -, -, -⟩ := query_spec env g
  have hq := query_wf env hg
  have hm := wf_mutual hq
  have hcopy : copyNodemap (g.query env) = .ok (g.query env) := by
    unfold copyNodemap
    rw [if_pos]
    simp only [List.all_eq_true, decide_eq_true_eq]
    intro v hv w hw
    exact (hm.sym v hv w hw).1
  have hr : Restr (g.query env) (g.query env) := by
    refine ⟨fun v hv => hv, hq.keysNodup, ?_⟩
    intro v hv
    unfold neighboursIn
    symm
    rw [List.filter_eq_self]
    intro w hw
    simpa using (hm.sym v hv w hw).1
  obtain ⟨g1, p1, p2, p3⟩ := pruneNodes_spec hm (fun n => iters 0 (n + 1)) (fun n l => hit 0 (n + 1) l) inside fuel poly hr (q1 ▸ hf)
  have hlen : g1.keys.length < fuel := by
    have := (p2.nodup.subperm (fun u hu => (p3.1 u hu).1 : g1.keys ⊆ (g.query env).keys)).length_le
    rw [q1] at this
    omega
  have hd' : NoDeadEnds g1 := by
    intro u hu
    rw [p2.adj u hu]
    exact (p3.1 u hu).2.2
  obtain ⟨ps, l1, l2⟩ := peelLoop_spec env y hy hm iters hit inside fuel fuel 1 poly g1 p2 hd' hlen hlen
  refine ⟨g1.keys, ps, ?_, p2.nodup, q1 ▸ p3, l2⟩
  unfold peelBoundary
  rw [hcopy]
  dsimp only
  rw [p1]
  exact l1

/-- **C159 (nested).**  Every polygon returned goes along edges of the graph, has at least four points, starts at its lowest one, and lies, with all its points, strictly inside the polygon given and all the polygons
returned before it: it has no vertex in common with them. -/
theorem C159_nested {R : Type} [LinearOrder R] (env : GEnv V) (y : V → R) (hy : ∀ a b, env.yLt a b = decide (y a < y b)) {g : G V} (hg : g.WF)
    (iters : Nat → Nat → List V → List V) (hit : ∀ k n l, (iters k n l).Perm l) (inside : List V → V → Bool) (poly : List V) (hp : poly ≠ []) (fuel : Nat) (hf : g.keys.length < fuel) :
    ∃ ps, peelBoundary env iters inside fuel poly g = some (.ok ps) ∧
      (∀ p ∈ ps, 3 < p.length ∧ p.IsChain g.HasEdge ∧ (∀ v ∈ p, v ∈ g.keys ∧ inside poly v = true ∧ v ∉ poly) ∧ ∀ v ∈ p.head?, ∀ w ∈ p, y v ≤ y w) ∧
      ps.Pairwise fun p q => ∀ v ∈ q, inside p v = true ∧ v ∉ p := by
  obtain ⟨S, ps, h1, hn, h2, h3⟩ := C159_peel_partial env y hy hg iters hit inside poly fuel hf
  have hq := query_wf env hg
  have hm := wf_mutual hq
  obtain ⟨q1, q2, -, -⟩ := query_spec env g
  have hE : ∀ a b, (g.query env).HasEdge a b → g.HasEdge a b := by
    intro a b
    unfold G.HasEdge
    rw [q2]
    exact id
  refine ⟨ps, h1, ?_⟩
  have key : ∀ {S' poly' ps'}, Layers (g.query env) y inside S' poly' ps' → (∀ v ∈ S', v ∈ S ∧ 2 ≤ (neighboursIn (g.query env) S' v).length) →
      (∀ p ∈ ps', 3 < p.length ∧ p.IsChain g.HasEdge ∧ (∀ v ∈ p, v ∈ S') ∧ ∀ v ∈ p.head?, ∀ w ∈ p, y v ≤ y w) ∧ ps'.Pairwise fun p q => ∀ v ∈ q, inside p v = true ∧ v ∉ p := by
    intro S' poly' ps' hl
    induction hl with
    | stop _ => intro _; simp
    | @peel S1 S2 poly p ps a1 a2 a3 a4 a5 a6 ih =>
      intro hS
      obtain ⟨i1, i2⟩ := ih (fun v hv => ⟨(hS v (a4.1 v hv).1).1, (a4.1 v hv).2.2⟩)
      obtain ⟨v, rest, rfl, r1, r2, r3, r4, r5, r6, r7⟩ := a3
      have hkey : ∀ w ∈ v :: rest, w ∈ (g.query env).keys := fun w hw => q1 ▸ (h2.1 w (hS w (r3 w hw)).1).1
      have hch : ∀ (l : List V), (∀ w ∈ l, w ∈ (g.query env).keys) → l.IsChain (fun a b => b ∈ (g.query env).adj a) → l.IsChain g.HasEdge := by
        intro l
        induction l with
        | nil => intro _ _; simp
        | cons a l ih =>
          intro hk hc
          cases l with
          | nil => simp
          | cons b l =>
            rw [List.isChain_cons_cons] at hc ⊢
            exact ⟨hE a b ((hq.adjacent a b).1 ⟨hk a (by simp), hc.1⟩), ih (fun w hw => hk w (List.mem_cons_of_mem _ hw)) hc.2⟩
      refine ⟨?_, ?_⟩
      · intro q hq'
        rcases List.mem_cons.1 hq' with rfl | hq'
        · refine ⟨?_, hch _ hkey r4, r3, ?_⟩
          · rcases r7 with ⟨e1, e2, e3⟩ | ⟨-, e2⟩
            · cases rest with
              | nil => simp at e1
              | cons a rest =>
                have hva := (List.isChain_cons_cons.1 r4).1
                have hav : a ≠ v := (hm.sym v (hkey v (by simp)) a hva).2.2.symm
                cases rest with
                | nil => simp at e1; exact absurd e1 hav
                | cons b rest =>
                  cases rest with
                  | nil =>
                    simp at e1
                    subst e1
                    exfalso
                    obtain ⟨t, ht⟩ := r6 [] b a b [] rfl
                    have hnd := (hm.nodup a (hkey a (by simp))).filter (fun w => decide (w ∈ S1))
                    have := ht.nodup_iff.1 hnd
                    simp at this
                  | cons c rest => simp
            · simp only [List.length_cons]; omega
          · intro w hw u hu
            simp only [List.head?_cons, Option.mem_some_iff] at hw
            subst hw
            exact r2 u (r3 u hu)
        · obtain ⟨b1, b2, b3, b4⟩ := i1 q hq'
          exact ⟨b1, b2, fun w hw => (a4.1 w (b3 w hw)).1, b4⟩
      · rw [List.pairwise_cons]
        refine ⟨?_, i2⟩
        intro q hq' w hw
        exact (a4.1 w ((i1 q hq').2.2.1 w hw)).2.1 (by simp)
  obtain ⟨k1, k2⟩ := key h3 (fun v hv => ⟨hv, (h2.1 v hv).2.2⟩)
  refine ⟨?_, k2⟩
  intro p hp'
  obtain ⟨b1, b2, b3, b4⟩ := k1 p hp'
  refine ⟨b1, b2, ?_, b4⟩
  intro v hv
  obtain ⟨c1, c2, -⟩ := h2.1 v (b3 v hv)
  exact ⟨c1, c2 hp⟩

/-! ## Examples -/

/-- The inside test of `geom/polygon.py` for points with integer coordinates. -/
def insideZ (poly : List (ℤ × ℤ)) (v : ℤ × ℤ) : Bool := Geom.polyPointInside (poly.map fun q => (⟨(q.1 : ℚ), (q.2 : ℚ)⟩ : Geom.P ℚ)) ⟨(v.1 : ℚ), (v.2 : ℚ)⟩

/-- The sides of a square with the given lowest left corner and size. -/
def squareAt (x y n : ℤ) : List ((ℤ × ℤ) × (ℤ × ℤ)) := [((x, y), (x + n, y)), ((x + n, y), (x + n, y + n)), ((x + n, y + n), (x, y + n)), ((x, y + n), (x, y))]

/-- The way round the same square that a rim is. -/
def rimAt (x y n : ℤ) : List (ℤ × ℤ) := [(x, y), (x, y + n), (x + n, y + n), (x + n, y), (x, y)]

/-- Three squares one inside the other, with a dead end between two of them. -/
def nested : G (ℤ × ℤ) := graphOf (squareAt 0 0 20 ++ squareAt 5 5 10 ++ squareAt 7 7 6 ++ [((5, 15), (3, 16))])

/-- The hypotheses of C159 hold for three nested squares; the two inner ones are peeled, and the dead end is pruned. -/
example : nested.WF ∧ (∀ a b, envZ.yLt a b = decide (a.2 < b.2)) ∧ (rimAt 0 0 20 ≠ []) ∧ nested.keys.length < 20 ∧
    boundaryPolygon envZ nested = .ok (rimAt 0 0 20) ∧
    peelBoundary envZ (fun _ _ l => l) insideZ 20 (rimAt 0 0 20) nested = some (.ok [rimAt 5 5 10, rimAt 7 7 6]) :=
  ⟨(C65_history envZ _).1, fun _ _ => rfl, by decide, by decide +kernel, by decide +kernel, by decide +kernel⟩

/-- A square with two separate squares inside. -/
def twoIslands : G (ℤ × ℤ) := graphOf (squareAt 0 0 20 ++ squareAt 2 5 6 ++ squareAt 11 6 6)

/-- **C159, refuted (an inner part lost).**  With two separate squares inside the boundary only the lower one is peeled; the other is strictly inside the boundary too,
without dead ends and with four nodes, but none of its vertices is in any polygon returned. -/
theorem C159_islands_refuted : twoIslands.WF ∧ peelBoundary envZ (fun _ _ l => l) insideZ 20 (rimAt 0 0 20) twoIslands = some (.ok [rimAt 2 5 6]) ∧
    (∀ v ∈ rimAt 11 6 6, v ∈ twoIslands.keys ∧ insideZ (rimAt 0 0 20) v = true ∧ v ∉ rimAt 0 0 20 ∧ 2 ≤ (twoIslands.adj v).length ∧ v ∉ rimAt 2 5 6) :=
  ⟨(C65_history envZ _).1, by decide +kernel, by decide +kernel⟩

/-- A square with a triangle inside. -/
def islet : G (ℤ × ℤ) := graphOf (squareAt 0 0 20 ++ [((5, 5), (10, 5)), ((10, 5), (5, 10)), ((5, 10), (5, 5))])

/-- **C159, refuted (triangles).**  An inner part of three nodes is never peeled. -/
theorem C159_triangle_refuted : islet.WF ∧ peelBoundary envZ (fun _ _ l => l) insideZ 20 (rimAt 0 0 20) islet = some (.ok []) ∧
    (∀ v ∈ [((5 : ℤ), (5 : ℤ)), (10, 5), (5, 10)], v ∈ islet.keys ∧ insideZ (rimAt 0 0 20) v = true ∧ v ∉ rimAt 0 0 20 ∧ 2 ≤ (islet.adj v).length) :=
  ⟨(C65_history envZ _).1, by decide +kernel, by decide +kernel⟩

end Verif.Graph
