import Verif.Ext.Quasink
import Verif.Geom.Props5
import Verif.Cam.Props4

/-!
# C150: chains of segments
-/

set_option linter.unusedSectionVars false

namespace Verif.Ext
open Verif PyFloat PyTrig Geom

/-- Specification: two points are equal up to the tolerance. -/
def Near (eps : ℝ) (p q : P ℝ) : Prop := sqDist p q < eps ^ 2

/-- Specification: the same segment, drawn from either end. -/
def SameSegment (s t : Line ℝ) : Prop := t = s ∨ t = ⟨s.p2, s.p1⟩

/-- Specification: every segment but the first begins where the one before it ends. -/
def Chained (eps : ℝ) (c : List (Line ℝ)) : Prop := c ≠ [] ∧ c.IsChain fun s t => Near eps s.p2 t.p1

/-- Specification: an end of the segment is at the point. -/
def Touches (eps : ℝ) (s : Line ℝ) (p : P ℝ) : Prop := Near eps s.p1 p ∨ Near eps s.p2 p

/-- Specification: no segment of the list can be attached to either end of the chain. -/
def Finished (eps : ℝ) (c later : List (Line ℝ)) : Prop :=
  ∀ first ∈ c.head?, ∀ last ∈ c.getLast?, ∀ s ∈ later, ¬ Touches eps s first.p1 ∧ ¬ Touches eps s last.p2

/-- Specification: the points of the line drawn for a chain: where it starts, and where each segment ends. -/
def throughChain (c : List (Line ℝ)) : List (P ℝ) := (c.head?.map Line.p1).toList ++ c.map Line.p2

/-- Specification: the segments in the chains are the given ones, each once, perhaps turned round. -/
def Uses (used c : List (Line ℝ)) : Prop := ∃ l : List (Line ℝ), l.Perm used ∧ List.Forall₂ SameSegment l c

/-- Specification: a list of chains made of the given segments. -/
def ChainsOf (eps : ℝ) (segs : List (Line ℝ)) (chains : List (List (Line ℝ))) : Prop :=
  Uses segs chains.flatten ∧ (∀ c ∈ chains, Chained eps c) ∧ chains.Pairwise fun c d => Finished eps c d

theorem near_comm {eps : ℝ} {p q : P ℝ} (h : Near eps p q) : Near eps q p := by
  unfold Near sqDist at *; nlinarith

theorem isChain_snoc {α : Type} {R : α → α → Prop} (l : List α) (a : α) (h : l.IsChain R) (hl : ∀ b ∈ l.getLast?, R b a) :
    (l ++ [a]).IsChain R := by
  rw [List.isChain_append]
  refine ⟨h, List.isChain_singleton a, ?_⟩
  intro x hx y hy
  simp at hy
  subst hy
  exact hl x hx

theorem uses_append (used c : List (Line ℝ)) (s t : Line ℝ) (h : Uses used c) (hs : SameSegment s t) :
    Uses (used ++ [s]) (c ++ [t]) ∧ Uses (used ++ [s]) (t :: c) := by
  obtain ⟨l, hl, hf⟩ := h
  refine ⟨⟨l ++ [s], hl.append_right _, List.rel_append hf (List.Forall₂.cons hs List.Forall₂.nil)⟩, s :: l, ?_, List.Forall₂.cons hs hf⟩
  exact (List.perm_append_singleton s l).symm.trans (hl.append_right _)

/-- What one attempt does: the segment is attached at an end and everything else stays. -/
theorem connect_some (eps : ℝ) (chain c' : List (Line ℝ)) (s : Line ℝ) (hc : chain = [] ∨ Chained eps chain)
    (h : connectSegment eps chain s = some c') :
    Chained eps c' ∧ ∀ used, Uses used chain → Uses (used ++ [s]) c' := by
  rcases hc with rfl | ⟨hne, hc⟩
  · simp [connectSegment] at h
    subst h
    refine ⟨⟨by simp, by simp⟩, ?_⟩
    intro used hu
    obtain ⟨l, hl, hf⟩ := hu
    cases hf
    have : used = [] := hl.symm.eq_nil
    subst this
    exact ⟨[s], List.Perm.refl _, List.Forall₂.cons (Or.inl rfl) List.Forall₂.nil⟩
  · obtain ⟨first, hfirst⟩ : ∃ f, chain.head? = some f := by
      cases chain with
      | nil => exact absurd rfl hne
      | cons a l => exact ⟨a, rfl⟩
    obtain ⟨last, hlast⟩ : ∃ f, chain.getLast? = some f := ⟨chain.getLast hne, List.getLast?_eq_some_getLast hne⟩
    simp only [connectSegment, hfirst, hlast] at h
    have hsame : SameSegment s s := Or.inl rfl
    have hrev : SameSegment s s.reversed := Or.inr rfl
    have hcons : ∀ t : Line ℝ, Near eps t.p2 first.p1 → Chained eps (t :: chain) := by
      intro t ht
      refine ⟨by simp, ?_⟩
      cases chain with
      | nil => exact absurd rfl hne
      | cons a l =>
        simp at hfirst
        subst hfirst
        exact List.IsChain.cons_cons ht hc
    have hsnoc : ∀ t : Line ℝ, Near eps last.p2 t.p1 → Chained eps (chain ++ [t]) := by
      intro t ht
      refine ⟨by simp, isChain_snoc chain t hc ?_⟩
      intro b hb
      rw [hlast] at hb
      cases hb
      exact ht
    by_cases h1 : s.p1.eq eps last.p2 = true
    · rw [if_pos h1] at h
      cases h
      exact ⟨hsnoc s (near_comm ((eq_iff eps _ _).1 h1)), fun used hu => (uses_append used chain s s hu hsame).1⟩
    rw [if_neg h1] at h
    by_cases h2 : s.p2.eq eps last.p2 = true
    · rw [if_pos h2] at h
      cases h
      exact ⟨hsnoc s.reversed (near_comm ((eq_iff eps _ _).1 h2)), fun used hu => (uses_append used chain s _ hu hrev).1⟩
    rw [if_neg h2] at h
    by_cases h3 : s.p2.eq eps first.p1 = true
    · rw [if_pos h3] at h
      cases h
      exact ⟨hcons s ((eq_iff eps _ _).1 h3), fun used hu => (uses_append used chain s s hu hsame).2⟩
    rw [if_neg h3] at h
    by_cases h4 : s.p1.eq eps first.p1 = true
    · rw [if_pos h4] at h
      cases h
      exact ⟨hcons s.reversed ((eq_iff eps _ _).1 h4), fun used hu => (uses_append used chain s _ hu hrev).2⟩
    rw [if_neg h4] at h
    cases h

theorem connect_none (eps : ℝ) (chain : List (Line ℝ)) (s : Line ℝ) (h : connectSegment eps chain s = none) :
    chain ≠ [] ∧ ∀ first ∈ chain.head?, ∀ last ∈ chain.getLast?, ¬ Touches eps s first.p1 ∧ ¬ Touches eps s last.p2 := by
  constructor
  · rintro rfl
    simp [connectSegment] at h
  · intro first hf last hl
    rw [Option.mem_def] at hf hl
    simp only [connectSegment, hf, hl] at h
    by_cases h1 : s.p1.eq eps last.p2 = true
    · simp [h1] at h
    by_cases h2 : s.p2.eq eps last.p2 = true
    · simp [h1, h2] at h
    by_cases h3 : s.p2.eq eps first.p1 = true
    · simp [h1, h2, h3] at h
    by_cases h4 : s.p1.eq eps first.p1 = true
    · simp [h1, h2, h3, h4] at h
    rw [eq_iff] at h1 h2 h3 h4
    exact ⟨fun h => h.elim h4 h3, fun h => h.elim h1 h2⟩

theorem chainPass_spec (eps : ℝ) (segs : List (Line ℝ)) : ∀ chain : List (Line ℝ), (chain = [] ∨ Chained eps chain) →
    ((chainPass eps chain segs).1 = [] ∨ Chained eps (chainPass eps chain segs).1) ∧
    (∃ used, (used ++ (chainPass eps chain segs).2).Perm segs ∧ ∀ u, Uses u chain → Uses (u ++ used) (chainPass eps chain segs).1) ∧
    (chainPass eps chain segs).2.length ≤ segs.length ∧
    ((chainPass eps chain segs).2.length = segs.length →
      (chainPass eps chain segs).1 = chain ∧ (chainPass eps chain segs).2 = segs ∧ ∀ s ∈ segs, connectSegment eps chain s = none) := by
  induction segs with
  | nil =>
    intro chain hc
    refine ⟨hc, ⟨[], by simp [chainPass], fun u hu => by simpa [chainPass] using hu⟩, by simp [chainPass], ?_⟩
    simp [chainPass]
  | cons s rest ih =>
    intro chain hc
    cases hcs : connectSegment eps chain s with
    | some c' =>
      obtain ⟨k1, k2⟩ := connect_some eps chain c' s hc hcs
      obtain ⟨i1, ⟨used, i2, i3⟩, i4, -⟩ := ih c' (Or.inr k1)
      simp only [chainPass, hcs]
      refine ⟨i1, ⟨s :: used, i2.cons s, ?_⟩, by simp only [List.length_cons]; omega, ?_⟩
      · intro u hu
        have := i3 _ (k2 u hu)
        simpa using this
      · intro hl
        simp only [List.length_cons] at hl
        omega
    | none =>
      obtain ⟨i1, ⟨used, i2, i3⟩, i4, i5⟩ := ih chain hc
      simp only [chainPass, hcs]
      refine ⟨i1, ⟨used, ?_, i3⟩, by simp only [List.length_cons]; omega, ?_⟩
      · exact List.perm_middle.trans (i2.cons s)
      · intro hl
        simp only [List.length_cons, Nat.add_right_cancel_iff] at hl
        obtain ⟨j1, j2, j3⟩ := i5 hl
        refine ⟨j1, by rw [j2], ?_⟩
        intro t ht
        rcases List.mem_cons.1 ht with rfl | ht
        · exact hcs
        · exact j3 t ht

theorem growChain_spec (eps : ℝ) (n : Nat) : ∀ (fuel : Nat) (chain segs : List (Line ℝ)), segs.length = n → n < fuel →
    (chain = [] ∨ Chained eps chain) → ∃ c rest, growChain eps fuel chain segs = some (c, rest) ∧
      (c = [] ∨ Chained eps c) ∧ (∃ used, (used ++ rest).Perm segs ∧ ∀ u, Uses u chain → Uses (u ++ used) c) ∧
      rest.length ≤ segs.length ∧ (chain = [] → segs ≠ [] → rest.length < segs.length) ∧ ∀ s ∈ rest, connectSegment eps c s = none := by
  induction n using Nat.strong_induction_on with
  | _ n ih =>
    intro fuel chain segs hn hf hc
    obtain ⟨fuel, rfl⟩ : ∃ f, fuel = f + 1 := ⟨fuel - 1, by omega⟩
    obtain ⟨p1, ⟨used, p2, p3⟩, p4, p5⟩ := chainPass_spec eps segs chain hc
    by_cases hlt : (chainPass eps chain segs).2.length < segs.length
    · obtain ⟨c, rest, g0, g1, ⟨used', g2, g3⟩, g4, -, g6⟩ :=
        ih (chainPass eps chain segs).2.length (by omega) fuel (chainPass eps chain segs).1 (chainPass eps chain segs).2 rfl (by omega) p1
      refine ⟨c, rest, ?_, g1, ⟨used ++ used', ?_, ?_⟩, by omega, fun _ _ => by omega, g6⟩
      · rw [growChain]
        rw [if_pos (by omega)]
        exact g0
      · rw [List.append_assoc]
        exact (g2.append_left used).trans p2
      · intro u hu
        rw [← List.append_assoc]
        exact g3 _ (p3 u hu)
    · have heq : (chainPass eps chain segs).2.length = segs.length := by omega
      obtain ⟨j1, j2, j3⟩ := p5 heq
      refine ⟨(chainPass eps chain segs).1, (chainPass eps chain segs).2, ?_, p1, ⟨used, p2, p3⟩, p4, ?_, ?_⟩
      · rw [growChain]
        rw [if_neg (by omega)]
      · intro hch hs
        exfalso
        obtain ⟨s, l, rfl⟩ := List.exists_cons_of_ne_nil hs
        exact (connect_none eps chain s (j3 s List.mem_cons_self)).1 hch
      · rw [j1, j2]
        exact j3

theorem polyline_eq (c : List (Line ℝ)) : chainPolyline c = throughChain c := by
  cases c <;> simp [chainPolyline, throughChain]

theorem uses_perm {u v c : List (Line ℝ)} (h : Uses u c) (hp : u.Perm v) : Uses v c := by
  obtain ⟨l, hl, hf⟩ := h
  exact ⟨l, hl.trans hp, hf⟩

theorem uses_concat {u v c d : List (Line ℝ)} (h : Uses u c) (h' : Uses v d) : Uses (u ++ v) (c ++ d) := by
  obtain ⟨l, hl, hf⟩ := h
  obtain ⟨l', hl', hf'⟩ := h'
  exact ⟨l ++ l', hl.append hl', List.rel_append hf hf'⟩

theorem uses_mem {u c : List (Line ℝ)} (h : Uses u c) (t : Line ℝ) (ht : t ∈ c) : ∃ s ∈ u, SameSegment s t := by
  obtain ⟨l, hl, hf⟩ := h
  have : ∃ s ∈ l, SameSegment s t := by
    clear hl
    induction hf with
    | nil => cases ht
    | cons hab _ ih =>
      rcases List.mem_cons.1 ht with rfl | ht
      · exact ⟨_, List.mem_cons_self, hab⟩
      · obtain ⟨s, hs, h⟩ := ih ht
        exact ⟨s, List.mem_cons_of_mem _ hs, h⟩
  obtain ⟨s, hs, h⟩ := this
  exact ⟨s, hl.mem_iff.1 hs, h⟩

theorem touches_same {eps : ℝ} {s t : Line ℝ} {p : P ℝ} (h : SameSegment s t) (ht : Touches eps t p) : Touches eps s p := by
  rcases h with rfl | rfl
  · exact ht
  · exact ht.symm

/-- **C150 (chains).** For every list of segments the chaining ends, and the lines it returns are those through chains in which every segment occurs exactly once, drawn from one of its ends; in each
chain every segment begins, up to the tolerance, where the one before it ends; and no segment of a later chain has an end at either end of an earlier chain, so that no chain could have been continued. -/
theorem C150_chains (eps : ℝ) (n : Nat) : ∀ (segs : List (Line ℝ)) (fuel : Nat), segs.length = n → n + 1 < fuel →
    ∃ chains : List (List (Line ℝ)), createChains eps fuel segs = some (chains.map throughChain) ∧ ChainsOf eps segs chains := by
  induction n using Nat.strong_induction_on with
  | _ n ih =>
    intro segs fuel hn hf
    obtain ⟨fuel, rfl⟩ : ∃ f, fuel = f + 1 := ⟨fuel - 1, by omega⟩
    by_cases hs : segs = []
    · subst hs
      exact ⟨[], by simp [createChains], ⟨[], List.Perm.refl _, List.Forall₂.nil⟩, by simp, List.Pairwise.nil⟩
    · obtain ⟨c, rest, g0, g1, ⟨used, g2, g3⟩, g4, g5, g6⟩ := growChain_spec eps n fuel [] segs hn (by omega) (Or.inl rfl)
      have hlt := g5 rfl hs
      have hused := g3 [] ⟨[], List.Perm.refl _, List.Forall₂.nil⟩
      have hc : Chained eps c := by
        rcases g1 with rfl | h
        · exfalso
          obtain ⟨l, hl, hf⟩ := hused
          cases hf
          have h0 := hl.length_eq
          have h1 := g2.length_eq
          simp only [List.length_append, List.length_nil] at h0 h1
          omega
        · exact h
      obtain ⟨chains, i1, i2, i3, i4⟩ := ih rest.length (by omega) rest fuel rfl (by omega)
      refine ⟨c :: chains, ?_, ?_, ?_, ?_⟩
      · have hne : segs.isEmpty = false := by simpa using hs
        have hce : c.isEmpty = false := by simpa using hc.1
        simp only [createChains, hne, Bool.false_eq_true, if_false, g0, i1, hce, List.map_cons, polyline_eq]
      · rw [List.flatten_cons]
        exact uses_perm (uses_concat hused i2) (by simpa using g2)
      · intro d hd
        rcases List.mem_cons.1 hd with rfl | hd
        · exact hc
        · exact i3 d hd
      · rw [List.pairwise_cons]
        refine ⟨?_, i4⟩
        intro d hd first hfi last hla t ht
        obtain ⟨s, hsr, hst⟩ := uses_mem i2 t (List.mem_flatten.2 ⟨d, hd, ht⟩)
        obtain ⟨k1, k2⟩ := (connect_none eps c s (g6 s hsr)).2 first hfi last hla
        exact ⟨fun h => k1 (touches_same hst h), fun h => k2 (touches_same hst h)⟩

/-! ## Drawing the chains -/

/-- Specification: stably sorted by a key, largest first. -/
def SortedDown {A : Type} (key : A → ℝ) (l r : List A) : Prop :=
  r.Perm l ∧ (r.Pairwise fun a b => key b ≤ key a) ∧ ∀ k : ℝ, (r.filter fun a => decide (key a = k)) = l.filter fun a => decide (key a = k)

/-- Specification: stably sorted by a key, smallest first. -/
def SortedUp {A : Type} {κ : Type} [LinearOrder κ] (key : A → κ) (l r : List A) : Prop :=
  r.Perm l ∧ (r.Pairwise fun a b => key a ≤ key b) ∧ ∀ k : κ, (r.filter fun a => decide (key a = k)) = l.filter fun a => decide (key a = k)

theorem sortKeyed_map {A κ : Type} (lt : κ → κ → Bool) (rev : Bool) (key : A → κ) (l : List A) :
    sortKeyed lt rev (l.map fun a => (key a, a)) = Cam.pySort (fun a b => if rev then lt (key b) (key a) else lt (key a) (key b)) l := by
  unfold sortKeyed
  rw [Cam.pySort_map, List.map_map]
  exact List.map_id _

theorem sortKeyed_up {A κ : Type} [LinearOrder κ] (lt : κ → κ → Bool) (hlt : ∀ a b, lt a b = decide (a < b)) (key : A → κ) (l : List A) :
    SortedUp key l (sortKeyed lt false (l.map fun a => (key a, a))) := by
  rw [sortKeyed_map]
  have e : (fun a b : A => if false = true then lt (key b) (key a) else lt (key a) (key b)) = Cam.keyLt key := by
    funext a b
    simp [hlt, Cam.keyLt]
  rw [e]
  exact ⟨Cam.pySort_perm key l, Cam.pySort_sorted key l, fun k => Cam.pySort_filter key k l⟩

theorem sortKeyed_down {A κ : Type} [LinearOrder κ] (lt : κ → κ → Bool) (hlt : ∀ a b, lt a b = decide (a < b)) (key : A → κ) (l : List A) :
    SortedUp (fun a => OrderDual.toDual (key a)) l (sortKeyed lt true (l.map fun a => (key a, a))) := by
  rw [sortKeyed_map]
  have e : (fun a b : A => if true = true then lt (key b) (key a) else lt (key a) (key b)) = Cam.keyLt (fun a => OrderDual.toDual (key a)) := by
    funext a b
    simp [hlt, Cam.keyLt]
  rw [e]
  exact ⟨Cam.pySort_perm _ l, Cam.pySort_sorted _ l, fun k => Cam.pySort_filter _ k l⟩

/-- Specification: the line ends where it begins, up to the tolerance in each coordinate. -/
def ClosedLine (eps : ℝ) (v : List (P ℝ)) : Prop :=
  ∃ a b, v.head? = some a ∧ v.getLast? = some b ∧ |a.x - b.x| < eps ∧ |a.y - b.y| < eps

open Classical in
/-- Specification: what is drawn of a line: nothing if only closed lines are wanted and it is not closed. -/
noncomputable def drawnOf (eps : ℝ) (fillClosed closedOnly : Bool) (v : List (P ℝ)) : Option (DrawnChain ℝ) :=
  if closedOnly = true ∧ ¬ ClosedLine eps v then none else some ⟨v, fillClosed && decide (ClosedLine eps v)⟩

open Classical in
theorem drawChain_eq (eps : ℝ) (fc co : Bool) (v : List (P ℝ)) (hv : v ≠ []) : drawChain eps fc co v = .ok (drawnOf eps fc co v) := by
  have hl : v.getLast? = some (v.getLast hv) := List.getLast?_eq_some_getLast hv
  have hh : v.head? = some (v.head hv) := List.head?_eq_some_head hv
  have hcl : polyIsClosed eps v = .ok (decide (ClosedLine eps v)) := by
    unfold polyIsClosed
    simp only [hl, hh]
    congr 1
    rw [Bool.eq_iff_iff]
    simp only [Bool.and_eq_true, floatEq_iff, decide_eq_true_eq]
    constructor
    · intro h
      exact ⟨_, _, hh, hl, h.1, h.2⟩
    · rintro ⟨a, b, ha, hb, h1, h2⟩
      rw [hh] at ha
      rw [hl] at hb
      cases ha
      cases hb
      exact ⟨h1, h2⟩
  unfold drawChain drawnOf
  simp only [hcl, bind, Except.bind, pure, Except.pure]
  by_cases h1 : ClosedLine eps v <;> cases co <;> simp [h1]

theorem mapM_eq_ok {A B : Type} (f : A → Except PyErr B) (g : A → B) (l : List A) (h : ∀ a ∈ l, f a = .ok (g a)) : l.mapM f = .ok (l.map g) := by
  induction l with
  | nil => rfl
  | cons a l ih =>
    rw [List.mapM_cons, h a List.mem_cons_self, ih fun b hb => h b (List.mem_cons_of_mem _ hb)]
    rfl

/-- **C150 (drawing).** Drawing the chains of any list of segments ends without an exception.  It draws the lines through chains as in `C150_chains`, the ones around the largest area first and
those with equal area in the order in which they were found; with "closed polygons only" just those that end where they begin; and it fills exactly the closed ones, if asked to. -/
theorem C150_drawn (eps : ℝ) (fillClosed closedOnly : Bool) (segs : List (Line ℝ)) (fuel : Nat) (hf : segs.length + 1 < fuel) :
    ∃ (chains : List (List (Line ℝ))) (order : List (List (P ℝ))), ChainsOf eps segs chains ∧
      SortedDown (fun v => |polyArea v|) (chains.map throughChain) order ∧
      drawChains eps fillClosed closedOnly fuel segs = some (.ok (order.filterMap (drawnOf eps fillClosed closedOnly))) := by
  obtain ⟨chains, h1, h2⟩ := C150_chains eps segs.length segs fuel rfl hf
  refine ⟨chains, sortChains (chains.map throughChain), h2, ?_, ?_⟩
  · obtain ⟨k1, k2, k3⟩ := sortKeyed_down (fun a b : ℝ => a <. b) (fun a b => by rw [Bool.eq_iff_iff]; simp) (fun v : List (P ℝ) => |polyArea v|) (chains.map throughChain)
    exact ⟨k1, k2, k3⟩
  · unfold drawChains
    rw [h1]
    simp only [Option.map_some]
    rw [mapM_eq_ok _ (drawnOf eps fillClosed closedOnly)]
    · simp [Except.map, List.filterMap_map]
    · intro v hv
      refine drawChain_eq eps fillClosed closedOnly v ?_
      have hm : v ∈ chains.map throughChain := by
        have := (sortKeyed_down (fun a b : ℝ => a <. b) (fun a b => by rw [Bool.eq_iff_iff]; simp) (fun v : List (P ℝ) => |polyArea v|) (chains.map throughChain)).1
        exact this.mem_iff.1 hv
      obtain ⟨c, hc, rfl⟩ := List.mem_map.1 hm
      obtain ⟨hne, -⟩ := h2.2.1 c hc
      cases c with
      | nil => exact absurd rfl hne
      | cons a l => simp [throughChain]

/-- Points of the examples. -/
def qp (x y : ℚ) : P ℚ := ⟨x, y⟩

/-- Non-vacuity: three sides of a square, one of them turned round, and a segment elsewhere make two chains. -/
example : createChains (1/100) 6 [⟨qp 0 0, qp 1 0⟩, ⟨qp 5 5, qp 6 5⟩, ⟨qp 1 1, qp 1 0⟩, ⟨qp 0 1, qp 0 0⟩]
    = some [[qp 0 1, qp 0 0, qp 1 0, qp 1 1], [qp 5 5, qp 6 5]] := by decide +kernel

/-- **C150 (refuted): not every closed polygon made of the segments is drawn as one.**  The four sides of a square alone are drawn, and filled, as a closed polygon.  With one more segment
at the corner where the chain closes, the chain runs on along it, ends elsewhere, and "closed polygons only" draws nothing. -/
theorem C150_closed_polygon_refuted :
    drawChains (1/100 : ℚ) true true 10 [⟨qp 0 0, qp 1 0⟩, ⟨qp 1 0, qp 1 1⟩, ⟨qp 1 1, qp 0 1⟩, ⟨qp 0 1, qp 0 0⟩]
      = some (.ok [⟨[qp 0 0, qp 1 0, qp 1 1, qp 0 1, qp 0 0], true⟩]) ∧
    drawChains (1/100 : ℚ) true true 10 [⟨qp 0 0, qp 1 0⟩, ⟨qp 1 0, qp 1 1⟩, ⟨qp 1 1, qp 0 1⟩, ⟨qp 0 1, qp 0 0⟩, ⟨qp 0 0, qp (-1) 0⟩]
      = some (.ok []) := by decide +kernel

end Verif.Ext
