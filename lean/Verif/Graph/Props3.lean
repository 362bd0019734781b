import Verif.Graph.Props2
import Verif.Graph.Faces
import Mathlib.Data.List.Rotate
import Mathlib.Data.Finset.Card
import Mathlib.Data.Finset.Image

/-!
# C140: the faces of a graph
-/

set_option linter.unusedSectionVars false

namespace Verif.Graph
open Verif

variable {V : Type} [DecidableEq V]

/-! ## Specification -/

/-- Specification: the steps of a walk, with their direction. -/
def steps : List V → List (V × V)
  | a :: b :: l => (a, b) :: steps (b :: l)
  | _ => []

/-- Specification: in the list read as a circle, `c` comes immediately before `a`.  With the neighbours of a node listed counter-clockwise it is the next neighbour
clockwise from `a`: coming from `a`, `c` is the leftmost way on. -/
def JustBefore (l : List V) (a c : V) : Prop := ∃ rest, l ~r (c :: a :: rest)

/-- Specification: a walk that starts and ends at the same node, does not pass it in between, and takes the leftmost way on at every node. -/
def IsFaceWalk (g : G V) (w : List V) : Prop :=
  (∃ s mid, w = s :: (mid ++ [s]) ∧ s ∉ mid ∧ 2 ≤ mid.length) ∧ ∀ l₁ a b c l₂, w = l₁ ++ a :: b :: c :: l₂ → JustBefore (g.adj b) a c

/-! ## Lemmas -/

theorem before_spec {l : List V} (hn : l.Nodup) {x : V} (hx : x ∈ l) (h2 : 2 ≤ l.length) :
    ∃ y, before l x = some y ∧ y ∈ l ∧ y ≠ x ∧ JustBefore l x y := by
  obtain ⟨l₁, l₂, rfl⟩ := List.append_of_mem hx
  have hx1 : x ∉ l₁ := by
    intro h
    have := List.nodup_append.1 hn
    exact this.2.2 _ h _ (by simp) rfl
  have hi : (l₁ ++ x :: l₂).idxOf x = l₁.length := by
    rw [List.idxOf_append_of_notMem hx1]; simp
  unfold before
  rw [if_pos hx, hi]
  rcases List.eq_nil_or_concat l₁ with rfl | ⟨l₀, y, rfl⟩
  · rcases List.eq_nil_or_concat l₂ with rfl | ⟨l₀, y, rfl⟩
    · simp at h2
    · refine ⟨y, ?_, by simp, ?_, l₀, ?_⟩
      · simp only [List.nil_append, List.length_nil, List.length_cons, List.concat_eq_append, List.length_append, Nat.zero_add, Nat.add_sub_cancel]
        rw [Nat.mod_eq_of_lt (by omega)]
        simp
      · rintro rfl
        simp at hn
      · refine ⟨l₀.length + 1, ?_⟩
        have := List.rotate_append_length_eq (x :: l₀) [y]
        simpa using this
  · refine ⟨y, ?_, by simp, ?_, l₂ ++ l₀, ?_⟩
    · have e : (l₀.concat y).length + (l₀.concat y ++ x :: l₂).length - 1 = l₀.length + (l₀.concat y ++ x :: l₂).length := by
        simp
      rw [e, Nat.add_mod_right, Nat.mod_eq_of_lt (by simp)]
      simp
    · rintro rfl
      simp at hx1
    · refine ⟨l₀.length, ?_⟩
      have := List.rotate_append_length_eq l₀ (y :: x :: l₂)
      simpa using this

theorem justBefore_inj {l : List V} (hn : l.Nodup) {a b c : V} (h1 : JustBefore l a c) (h2 : JustBefore l b c) : a = b := by
  obtain ⟨r1, h1⟩ := h1
  obtain ⟨r2, h2⟩ := h2
  have h := h1.symm.trans h2
  have hn' : (c :: a :: r1).Nodup := h1.nodup_iff.1 hn
  obtain ⟨n, h⟩ := h
  have hlen : (c :: a :: r1).length = (c :: b :: r2).length := by rw [← h, List.length_rotate]
  have hm : (c :: a :: r1).rotate (n % (c :: a :: r1).length) = c :: b :: r2 := by rw [List.rotate_mod, h]
  have hlt : n % (c :: a :: r1).length < (c :: a :: r1).length := Nat.mod_lt _ (by simp)
  generalize n % (c :: a :: r1).length = k at hm hlt
  have h0 := List.getElem_rotate (c :: a :: r1) k 0 (by simp)
  have e0 : ((c :: a :: r1).rotate k)[0]'(by simp) = c := by simp only [hm, List.getElem_cons_zero]
  rw [e0] at h0
  have h00 : (c :: a :: r1)[0]'(by simp) = c := rfl
  have hk := (List.Nodup.getElem_inj_iff hn').1 (h00.trans h0)
  rw [Nat.zero_add, Nat.mod_eq_of_lt hlt] at hk
  subst hk
  simp at hm
  exact hm.1

/-- The steps of the graph: both directions of every edge. -/
def sidesOf (g : G V) : List (V × V) := g.edges ++ g.edges.map Prod.swap

theorem mem_sidesOf (g : G V) (a b : V) : (a, b) ∈ sidesOf g ↔ g.HasEdge a b := by
  unfold sidesOf G.HasEdge
  simp only [List.mem_append, List.mem_map, Prod.exists, Prod.swap_prod_mk, Prod.mk.injEq]
  constructor
  · rintro (h | ⟨x, y, h, rfl, rfl⟩)
    · exact Or.inl h
    · exact Or.inr h
  · rintro (h | h)
    · exact Or.inl h
    · exact Or.inr ⟨_, _, h, rfl, rfl⟩

theorem sidesOf_nodup {g : G V} (h : g.WF) : (sidesOf g).Nodup := by
  have hd : g.edges.Nodup := by
    refine h.distinct.imp ?_
    rintro e f hne rfl
    exact hne (Or.inl ⟨rfl, rfl⟩)
  unfold sidesOf
  rw [List.nodup_append]
  refine ⟨hd, hd.map Prod.swap_injective, ?_⟩
  rintro ⟨a, b⟩ h1 f h2 rfl
  simp only [List.mem_map, Prod.exists, Prod.swap_prod_mk, Prod.mk.injEq] at h2
  obtain ⟨x, y, h3, rfl, rfl⟩ := h2
  have hne := h.simple _ h1
  have := edges_nodup h
  have hinj := List.inj_on_of_nodup_map this h1 h3 (by simp [und, Sym2.eq_swap])
  simp only [Prod.mk.injEq] at hinj
  exact hne hinj.1

/-- Every node of the graph has at least two edges. -/
def NoDeadEnds (g : G V) : Prop := ∀ v ∈ g.keys, 2 ≤ (g.adj v).length

theorem hasEdge_left {g : G V} (h : g.WF) {a b : V} (he : g.HasEdge a b) : a ∈ g.keys ∧ b ∈ g.adj a := (h.adjacent a b).2 he

theorem next_side {g : G V} (h : g.WF) (hd : NoDeadEnds g) {a b : V} (he : g.HasEdge a b) :
    ∃ c, before (g.adj b) a = some c ∧ g.HasEdge b c ∧ c ≠ a ∧ JustBefore (g.adj b) a c := by
  obtain ⟨hb, ha⟩ := hasEdge_left h he.symm
  obtain ⟨c, h1, h2, h3, h4⟩ := before_spec (h.adjNodup b hb) ha (hd b hb)
  exact ⟨c, h1, (h.adjacent b c).1 ⟨hb, h2⟩, h3, h4⟩

/-- The relation between a side and the one the walk goes on with. -/
def NextSide (g : G V) (e f : V × V) : Prop := e.2 = f.1 ∧ before (g.adj e.2) e.1 = some f.2

theorem nextSide_inj {g : G V} (h : g.WF) (hd : NoDeadEnds g) {e e' f : V × V} (he : e ∈ sidesOf g) (he' : e' ∈ sidesOf g)
    (h1 : NextSide g e f) (h2 : NextSide g e' f) : e = e' := by
  obtain ⟨a, b⟩ := e
  obtain ⟨a', b'⟩ := e'
  obtain ⟨c, d⟩ := f
  obtain ⟨rfl, h1⟩ := h1
  obtain ⟨rfl, h2⟩ := h2
  rw [mem_sidesOf] at he he'
  dsimp only at h1 h2
  obtain ⟨x, hx, -, -, hx'⟩ := next_side h hd he
  obtain ⟨y, hy, -, -, hy'⟩ := next_side h hd he'
  rw [h1] at hx
  rw [h2] at hy
  cases hx
  cases hy
  obtain ⟨hb, -⟩ := hasEdge_left h he.symm
  rw [justBefore_inj (h.adjNodup _ hb) hx' hy']

/-- What holds for the marked sides between two walks from `s`. -/
structure MarksOk (g : G V) (s : V) (M : List (V × V)) : Prop where
  sub : ∀ e ∈ M, e ∈ sidesOf g
  fwd : ∀ e ∈ M, e.2 ≠ s → ∀ f, NextSide g e f → f ∈ M
  bwd : ∀ f ∈ M, f.1 ≠ s → ∃ e ∈ M, NextSide g e f

/-- How many sides are not marked. -/
def unmarked (g : G V) (M : List (V × V)) : Nat := ((sidesOf g).filter fun e => e ∉ M).length

theorem unmarked_lt {g : G V} {M : List (V × V)} {e : V × V} (he : e ∈ sidesOf g) (hn : e ∉ M) : unmarked g (e :: M) < unmarked g M := by
  unfold unmarked
  have h1 : ((sidesOf g).filter fun x => x ∉ e :: M) = ((sidesOf g).filter fun x => x ∉ M).filter fun x => x ≠ e := by
    rw [List.filter_filter]
    congr 1
    funext x
    simp [and_comm]
  rw [h1]
  exact List.length_filter_lt_length_iff_exists.2 ⟨e, by simp [he, hn], by simp⟩

theorem unmarked_mono {g : G V} {M M' : List (V × V)} (h : ∀ e ∈ M, e ∈ M') : unmarked g M' ≤ unmarked g M := by
  unfold unmarked
  refine List.Sublist.length_le (List.monotone_filter_right _ ?_)
  intro e he
  simp only [decide_eq_true_eq] at *
  exact fun h' => he (h _ h')

/-- The turns of a walk, given the two nodes before. -/
def Turning (g : G V) : V → V → List V → Prop
  | _, _, [] => True
  | p, c, n :: l => before (g.adj c) p = some n ∧ Turning g c n l

theorem faceWalk_spec {g : G V} (h : g.WF) (hd : NoDeadEnds g) (s : V) (fuel : Nat) : ∀ (p c : V) (face : List V) (M : List (V × V)),
    (p, c) ∈ M → (∀ e ∈ M, e ∈ sidesOf g) → (∀ e ∈ M, e ≠ (p, c) → e.2 ≠ s → ∀ f, NextSide g e f → f ∈ M) →
    (∀ f ∈ M, f.1 ≠ s → ∃ e ∈ M, e ≠ (p, c) ∧ NextSide g e f) → unmarked g M < fuel →
    ∃ rest M', faceWalk g s fuel p c face M = some (.ok (s, face ++ rest, M')) ∧ MarksOk g s M' ∧
      (∀ e, e ∈ M' ↔ e ∈ M ∨ e ∈ steps (c :: rest)) ∧ (steps (c :: rest)).Nodup ∧ (∀ e ∈ steps (c :: rest), e ∉ M) ∧ Turning g p c rest ∧
      (∃ mid, c :: rest = mid ++ [s] ∧ s ∉ mid) := by
  induction fuel with
  | zero => intro p c face M _ _ _ _ hf; omega
  | succ fuel ih =>
    intro p c face M hm hsub hfwd hbwd hf
    have hpc := (mem_sidesOf g p c).1 (hsub _ hm)
    have hc := (hasEdge_left h hpc.symm).1
    have hdeg := hd c hc
    unfold faceWalk
    by_cases hcs : c = s
    · subst hcs
      rw [if_neg (by simp)]
      refine ⟨[], M, by simp, ⟨hsub, ?_, ?_⟩, by simp [steps], by simp [steps], by simp [steps], trivial, [], by simp, by simp⟩
      · intro e he hes
        refine hfwd e he ?_ hes
        rintro rfl
        exact hes rfl
      · intro f hf' hfs
        obtain ⟨e, he, -, h1⟩ := hbwd f hf' hfs
        exact ⟨e, he, h1⟩
    · rw [if_pos ⟨hcs, by omega⟩]
      obtain ⟨n, hn, hcn, hnp, -⟩ := next_side h hd hpc
      rw [hn]
      dsimp only
      have hnk := (hasEdge_left h hcn.symm).1
      have hdn := hd n hnk
      rw [if_neg (by omega)]
      have hnew : (c, n) ∉ M := by
        intro hmem
        obtain ⟨e, he, hne, hnx⟩ := hbwd _ hmem hcs
        exact hne (nextSide_inj h hd (hsub _ he) (hsub _ hm) hnx ⟨rfl, hn⟩)
      have hside : (c, n) ∈ sidesOf g := (mem_sidesOf g c n).2 hcn
      obtain ⟨rest, M', h1, h2, h3, h4, h5, h6, mid, h7, h8⟩ := ih c n (face ++ [n]) ((c, n) :: M) (by simp)
        (by
          intro e he
          rcases List.mem_cons.1 he with rfl | he
          · exact hside
          · exact hsub _ he)
        (by
          intro e he hne hes f hfx
          rcases List.mem_cons.1 he with rfl | he
          · exact absurd rfl hne
          · by_cases hep : e = (p, c)
            · subst hep
              obtain ⟨h1, h2⟩ := hfx
              dsimp only at h1 h2
              rw [hn] at h2
              cases h2
              rw [h1]
              simp
            · exact List.mem_cons_of_mem _ (hfwd e he hep hes f hfx))
        (by
          intro f hf' hfs
          rcases List.mem_cons.1 hf' with rfl | hf'
          · refine ⟨(p, c), List.mem_cons_of_mem _ hm, ?_, rfl, hn⟩
            intro e
            exact hnew (e ▸ hm)
          · obtain ⟨e, he, hne, hnx⟩ := hbwd f hf' hfs
            refine ⟨e, List.mem_cons_of_mem _ he, ?_, hnx⟩
            rintro rfl
            exact hnew he)
        (by
          have := unmarked_lt hside hnew
          omega)
      refine ⟨n :: rest, M', ?_, h2, ?_, ?_, ?_, ⟨hn, h6⟩, c :: mid, ?_, ?_⟩
      · rw [h1]; simp
      · intro e
        rw [h3]
        simp only [List.mem_cons, steps]
        tauto
      · simp only [steps, List.nodup_cons]
        refine ⟨?_, h4⟩
        intro hmem
        exact h5 _ hmem (by simp)
      · intro e he
        simp only [steps, List.mem_cons] at he
        rcases he with rfl | he
        · exact hnew
        · intro h'
          exact h5 e he (List.mem_cons_of_mem _ h')
      · rw [h7]; rfl
      · simp only [List.mem_cons, not_or]
        exact ⟨fun e => hcs e.symm, h8⟩

theorem findFree_spec {g : G V} (s : V) (l : List V) (hl : ∀ v ∈ l, 1 < (g.adj v).length) : ∀ M : List (V × V),
    (∃ M', findFree g s M l = (none, M') ∧ (∀ e, e ∈ M' ↔ e ∈ M) ∧ ∀ v ∈ l, (s, v) ∈ M) ∨
    (∃ n M', findFree g s M l = (some n, M') ∧ n ∈ l ∧ (s, n) ∉ M ∧ ∀ e, e ∈ M' ↔ e ∈ M ∨ e = (s, n)) := by
  induction l with
  | nil => intro M; exact Or.inl ⟨M, rfl, fun _ => Iff.rfl, by simp⟩
  | cons v l ih =>
    intro M
    unfold findFree
    by_cases hv : (s, v) ∈ M
    · rw [if_neg (by simp [hv])]
      rcases ih (fun v hv => hl v (List.mem_cons_of_mem _ hv)) ((s, v) :: M) with ⟨M', h1, h2, h3⟩ | ⟨n, M', h1, h2, h3, h4⟩
      · refine Or.inl ⟨M', h1, ?_, ?_⟩
        · intro e
          rw [h2]
          simp only [List.mem_cons, or_iff_right_iff_imp]
          rintro rfl
          exact hv
        · intro w hw
          rcases List.mem_cons.1 hw with rfl | hw
          · exact hv
          · have := h3 w hw
            rcases List.mem_cons.1 this with h | h
            · rw [h]; exact hv
            · exact h
      · refine Or.inr ⟨n, M', h1, List.mem_cons_of_mem _ h2, ?_, ?_⟩
        · intro h'
          exact h3 (List.mem_cons_of_mem _ h')
        · intro e
          rw [h4]
          simp only [List.mem_cons]
          constructor
          · rintro ((rfl | h) | h)
            · exact Or.inl hv
            · exact Or.inl h
            · exact Or.inr h
          · rintro (h | h)
            · exact Or.inl (Or.inr h)
            · exact Or.inr h
    · rw [if_pos ⟨hv, hl v (by simp)⟩]
      refine Or.inr ⟨v, _, rfl, by simp, hv, ?_⟩
      intro e
      simp only [List.mem_cons]
      tauto

theorem turning_justBefore {g : G V} (h : g.WF) (hd : NoDeadEnds g) : ∀ (l : List V) (p c : V), g.HasEdge p c → Turning g p c l →
    ∀ l₁ x y z l₂, p :: c :: l = l₁ ++ x :: y :: z :: l₂ → JustBefore (g.adj y) x z := by
  intro l
  induction l with
  | nil =>
    intro p c _ _ l₁ x y z l₂ e
    have := congrArg List.length e
    simp at this
    omega
  | cons n l ih =>
    intro p c hpc ht l₁ x y z l₂ e
    obtain ⟨n', hn, hcn, -, hj⟩ := next_side h hd hpc
    obtain ⟨h1, h2⟩ := ht
    rw [h1] at hn
    cases hn
    cases l₁ with
    | nil =>
      simp only [List.nil_append, List.cons.injEq] at e
      obtain ⟨rfl, rfl, rfl, rfl⟩ := e
      exact hj
    | cons w l₁ =>
      simp only [List.cons_append, List.cons.injEq] at e
      exact ih c n hcn h2 l₁ x y z l₂ e.2

theorem nodeFaces_spec {g : G V} (h : g.WF) (hd : NoDeadEnds g) (cw : List V → Bool) (wf : Nat) (s : V) (hs : s ∈ g.keys) (hw : (sidesOf g).length ≤ wf)
    (fuel : Nat) : ∀ M : List (V × V), MarksOk g s M → unmarked g M < fuel →
    ∃ (walks : List (List V)) (M' : List (V × V)), nodeFaces g cw wf s fuel M = some (.ok (walks.filter fun w => !(cw w), M')) ∧ MarksOk g s M' ∧ (∀ v ∈ g.adj s, (s, v) ∈ M') ∧
      (∀ w ∈ walks, IsFaceWalk g w) ∧ (walks.flatMap steps).Nodup ∧ (∀ e ∈ walks.flatMap steps, e ∉ M) ∧
      (∀ e, e ∈ M' ↔ e ∈ M ∨ e ∈ walks.flatMap steps) := by
  induction fuel with
  | zero => intro M _ hf; omega
  | succ fuel ih =>
    intro M hM hf
    unfold nodeFaces
    have hdeg : ∀ v ∈ g.adj s, 1 < (g.adj v).length := by
      intro v hv
      have he := (h.adjacent s v).1 ⟨hs, hv⟩
      have := hd v (hasEdge_left h he.symm).1
      omega
    rcases findFree_spec s (g.adj s) hdeg M with ⟨M', h1, h2, h3⟩ | ⟨n, M1, h1, h2, h3, h4⟩
    · rw [h1]
      dsimp only
      refine ⟨[], M', rfl, ⟨?_, ?_, ?_⟩, ?_, by simp, by simp, by simp, ?_⟩
      · intro e he; exact hM.sub e ((h2 e).1 he)
      · intro e he hes f hfx; exact (h2 f).2 (hM.fwd e ((h2 e).1 he) hes f hfx)
      · intro f hf' hfs
        obtain ⟨e, he, hx⟩ := hM.bwd f ((h2 f).1 hf') hfs
        exact ⟨e, (h2 e).2 he, hx⟩
      · intro v hv; exact (h2 _).2 (h3 v hv)
      · intro e; rw [h2]; simp
    · rw [h1]
      dsimp only
      have hsn := (h.adjacent s n).1 ⟨hs, h2⟩
      have hside : (s, n) ∈ sidesOf g := (mem_sidesOf g s n).2 hsn
      have hun : unmarked g M1 < unmarked g M := by
        refine lt_of_le_of_lt (unmarked_mono ?_) (unmarked_lt hside h3)
        intro e he
        rw [h4]
        rcases List.mem_cons.1 he with rfl | he
        · exact Or.inr rfl
        · exact Or.inl he
      have hle : unmarked g M ≤ wf := le_trans (List.length_filter_le _ _) hw
      obtain ⟨rest, M2, w1, w2, w3, w4, w5, w6, mid, w7, w8⟩ := faceWalk_spec h hd s wf s n [s, n] M1 ((h4 _).2 (Or.inr rfl))
        (by
          intro e he
          rcases (h4 e).1 he with he | rfl
          · exact hM.sub e he
          · exact hside)
        (by
          intro e he hne hes f hfx
          rcases (h4 e).1 he with he | rfl
          · exact (h4 f).2 (Or.inl (hM.fwd e he hes f hfx))
          · exact absurd rfl hne)
        (by
          intro f hf' hfs
          rcases (h4 f).1 hf' with hf' | rfl
          · obtain ⟨e, he, hx⟩ := hM.bwd f hf' hfs
            refine ⟨e, (h4 e).2 (Or.inl he), ?_, hx⟩
            rintro rfl
            exact h3 he
          · exact absurd rfl hfs)
        (by omega)
      rw [w1]
      dsimp only
      have hun2 : unmarked g M2 ≤ unmarked g M1 := unmarked_mono fun e he => (w3 e).2 (Or.inl he)
      obtain ⟨walks, M3, v1, v2, v3, v4, v5, v6, v7⟩ := ih M2 w2 (by omega)
      rw [v1]
      dsimp only
      have hwalk : IsFaceWalk g (s :: n :: rest) := by
        refine ⟨⟨s, mid, by rw [w7], w8, ?_⟩, ?_⟩
        · -- at least two nodes in between
          have hne := hasEdge_ne h hsn
          cases rest with
          | nil =>
            have : mid = [] := by
              have := congrArg List.length w7
              simp only [List.length_cons, List.length_nil, List.length_append] at this
              exact List.length_eq_zero_iff.1 (by omega)
            subst this
            simp at w7
            exact absurd w7.symm hne
          | cons x rest =>
            obtain ⟨c, hc1, -, hc3, -⟩ := next_side h hd hsn
            have := w6.1
            rw [hc1] at this
            cases this
            cases rest with
            | nil =>
              have hl := congrArg List.getLast? w7
              simp at hl
              exact absurd hl hc3
            | cons y rest =>
              have := congrArg List.length w7
              simp at this
              omega
        · exact turning_justBefore h hd rest s n hsn w6
      refine ⟨(s :: n :: rest) :: walks, M3, ?_, v2, v3, ?_, ?_, ?_, ?_⟩
      · have hk : keepFace cw s s ([s, n] ++ rest) = !(cw (s :: n :: rest)) := by
          have hr : rest ≠ [] := by
            rintro rfl
            obtain ⟨⟨s', mid', e1, -, e2⟩, -⟩ := hwalk
            have := congrArg List.length e1
            simp only [List.length_cons, List.length_nil, List.length_append] at this
            omega
          have : 0 < rest.length := List.length_pos_of_ne_nil hr
          unfold keepFace
          simp
          omega
        rw [hk, List.filter_cons]
        rfl
      · intro w hw'
        rcases List.mem_cons.1 hw' with rfl | hw'
        · exact hwalk
        · exact v4 w hw'
      · rw [List.flatMap_cons, List.nodup_append]
        refine ⟨?_, v5, ?_⟩
        · simp only [steps, List.nodup_cons]
          refine ⟨?_, w4⟩
          intro hmem
          exact w5 _ hmem ((h4 _).2 (Or.inr rfl))
        · rintro e he f hf' rfl
          refine v6 e hf' ((w3 e).2 ?_)
          simp only [steps, List.mem_cons] at he
          rcases he with rfl | he
          · exact Or.inl ((h4 _).2 (Or.inr rfl))
          · exact Or.inr he
      · intro e he hm
        rw [List.flatMap_cons, List.mem_append] at he
        have hm1 := (h4 e).2 (Or.inl hm)
        rcases he with he | he
        · simp only [steps, List.mem_cons] at he
          rcases he with rfl | he
          · exact h3 hm
          · exact w5 e he hm1
        · exact v6 e he ((w3 e).2 (Or.inl hm1))
      · intro e
        rw [v7, w3, h4, List.flatMap_cons, List.mem_append]
        simp only [steps, List.mem_cons]
        tauto

theorem marksOk_next {g : G V} (h : g.WF) (hd : NoDeadEnds g) {s : V} {M : List (V × V)} (hM : MarksOk g s M) (hs : ∀ v ∈ g.adj s, (s, v) ∈ M) (t : V) :
    MarksOk g t M := by
  have hfwd : ∀ e ∈ M, ∀ f, NextSide g e f → f ∈ M := by
    intro e he f hf
    by_cases hes : e.2 = s
    · obtain ⟨a, b⟩ := e
      obtain ⟨c, d⟩ := f
      obtain ⟨h1, h2⟩ := hf
      dsimp only at *
      subst hes
      subst h1
      obtain ⟨x, hx, hx', -, -⟩ := next_side h hd ((mem_sidesOf g _ _).1 (hM.sub _ he))
      rw [h2] at hx
      cases hx
      exact hs _ (hasEdge_left h hx').2
    · exact hM.fwd e he hes f hf
  refine ⟨hM.sub, fun e he _ f hf => hfwd e he f hf, ?_⟩
  intro f hf _
  classical
  let φ : V × V → V × V := fun e => (e.2, (before (g.adj e.2) e.1).getD e.1)
  have hφ : ∀ e ∈ M, NextSide g e (φ e) := by
    intro e he
    obtain ⟨x, hx, -, -, -⟩ := next_side h hd ((mem_sidesOf g e.1 e.2).1 (hM.sub _ he))
    refine ⟨rfl, ?_⟩
    simp only [φ, hx, Option.getD_some]
  have himg : M.toFinset.image φ = M.toFinset := by
    refine Finset.eq_of_subset_of_card_le ?_ ?_
    · intro x hx
      obtain ⟨e, he, rfl⟩ := Finset.mem_image.1 hx
      exact List.mem_toFinset.2 (hfwd e (List.mem_toFinset.1 he) _ (hφ e (List.mem_toFinset.1 he)))
    · rw [Finset.card_image_of_injOn]
      intro e he e' he' heq
      have he := List.mem_toFinset.1 he
      have he' := List.mem_toFinset.1 he'
      refine nextSide_inj h hd (hM.sub _ he) (hM.sub _ he') (hφ e he) ?_
      rw [heq]
      exact hφ e' he'
  have : f ∈ M.toFinset.image φ := by rw [himg]; exact List.mem_toFinset.2 hf
  obtain ⟨e, he, rfl⟩ := Finset.mem_image.1 this
  exact ⟨e, List.mem_toFinset.1 he, hφ e (List.mem_toFinset.1 he)⟩

theorem makeFaces_spec {g : G V} (h : g.WF) (hd : NoDeadEnds g) (cw : List V → Bool) (fuel : Nat) (hw : (sidesOf g).length < fuel) (order : List V)
    (ho : ∀ v ∈ order, v ∈ g.keys) : ∀ M : List (V × V), (∀ t, MarksOk g t M) →
    ∃ walks : List (List V), makeFaces g cw fuel order M = some (.ok (walks.filter fun w => !(cw w))) ∧ (∀ w ∈ walks, IsFaceWalk g w) ∧ (walks.flatMap steps).Nodup ∧
      (∀ e ∈ walks.flatMap steps, e ∉ M ∧ e ∈ sidesOf g) ∧ (∀ s ∈ order, ∀ v ∈ g.adj s, (s, v) ∈ M ∨ (s, v) ∈ walks.flatMap steps) := by
  induction order with
  | nil => intro M _; exact ⟨[], rfl, by simp, by simp, by simp, by simp⟩
  | cons s order ih =>
    intro M hM
    unfold makeFaces
    have hle : unmarked g M ≤ (sidesOf g).length := List.length_filter_le _ _
    obtain ⟨walks, M', h1, h2, h3, h4, h5, h6, h7⟩ := nodeFaces_spec h hd cw fuel s (ho s (by simp)) (by omega) fuel M (hM s) (by omega)
    rw [h1]
    dsimp only
    obtain ⟨walks2, g1, g2, g3, g4, g5⟩ := ih (fun v hv => ho v (List.mem_cons_of_mem _ hv)) M' (marksOk_next h hd h2 h3)
    rw [g1]
    dsimp only
    refine ⟨walks ++ walks2, by rw [List.filter_append], ?_, ?_, ?_, ?_⟩
    · intro w hw'
      rcases List.mem_append.1 hw' with hw' | hw'
      · exact h4 w hw'
      · exact g2 w hw'
    · rw [List.flatMap_append, List.nodup_append]
      refine ⟨h5, g3, ?_⟩
      rintro e he f hf rfl
      exact (g4 e hf).1 ((h7 e).2 (Or.inr he))
    · intro e he
      rw [List.flatMap_append, List.mem_append] at he
      rcases he with he | he
      · exact ⟨h6 e he, h2.sub e ((h7 e).2 (Or.inr he))⟩
      · exact ⟨fun hm => (g4 e he).1 ((h7 e).2 (Or.inl hm)), (g4 e he).2⟩
    · intro t ht v hv
      rw [List.flatMap_append, List.mem_append]
      rcases List.mem_cons.1 ht with rfl | ht
      · rcases (h7 _).1 (h3 v hv) with h' | h'
        · exact Or.inl h'
        · exact Or.inr (Or.inl h')
      · rcases g5 t ht v hv with h' | h'
        · rcases (h7 _).1 h' with h' | h'
          · exact Or.inl h'
          · exact Or.inr (Or.inl h')
        · exact Or.inr (Or.inr h')

/-- **C140 (graphs without dead ends).**  `get_face_polygons` returns, whatever the order of the nodes, without an exception, and there is a list of walks such that
every walk comes back to its first node and takes the leftmost way on at every other node, the walks together go along every edge exactly once in
each direction, and the polygons returned are exactly the walks that are not clockwise. -/
theorem C140_faces_partial (env : GEnv V) {g : G V} (h : g.WF) (hd : NoDeadEnds g) (clockwise : List V → Bool) (korder : List V → List V) (hk : ∀ l, (korder l).Perm l) :
    ∃ walks : List (List V), facePolygons env g clockwise korder = some (.ok (walks.filter fun w => !(clockwise w))) ∧
      (∀ w ∈ walks, IsFaceWalk (g.query env) w) ∧ (walks.flatMap steps).Perm (g.edges ++ g.edges.map Prod.swap) := by
  obtain ⟨q1, q2, -, q3⟩ := query_spec env g
  have hq := query_wf env h
  have hdq : NoDeadEnds (g.query env) := by
    intro v hv
    rw [(q3 v).length_eq]
    exact hd v (q1 ▸ hv)
  have hlen : (sidesOf (g.query env)).length < 2 * g.edges.length + 1 := by
    unfold sidesOf
    rw [q2, List.length_append, List.length_map]
    omega
  obtain ⟨walks, h1, h2, h3, h4, h5⟩ := makeFaces_spec hq hdq clockwise (2 * g.edges.length + 1) hlen (korder (g.query env).keys)
    (fun v hv => (hk _).mem_iff.1 hv) [] (fun t => ⟨by simp, by simp, by simp⟩)
  refine ⟨walks, h1, h2, ?_⟩
  have hs : sidesOf (g.query env) = g.edges ++ g.edges.map Prod.swap := by unfold sidesOf; rw [q2]
  rw [← hs, List.perm_ext_iff_of_nodup h3 (sidesOf_nodup hq)]
  rintro ⟨a, b⟩
  refine ⟨fun he => (h4 _ he).2, fun he => ?_⟩
  obtain ⟨ha, hb⟩ := hasEdge_left hq ((mem_sidesOf _ a b).1 he)
  rcases h5 a ((hk _).mem_iff.2 ha) b hb with h' | h'
  · exact absurd h' (by simp)
  · exact h'

/-! ## Points with integer coordinates, for the examples -/

/-- Which half turn the direction from `c` to `a` is in. -/
def upper (c a : ℤ × ℤ) : Bool := c.2 < a.2 || (c.2 = a.2 && c.1 < a.1)

/-- The comparisons of the graph code for points with integer coordinates: the angle from the positive x axis, by half turns and cross products. -/
def envZ : GEnv (ℤ × ℤ) where
  yLt a b := a.2 < b.2
  ccwLt c a b := (upper c a && !(upper c b)) || (upper c a == upper c b && 0 < (a.1 - c.1) * (b.2 - c.2) - (a.2 - c.2) * (b.1 - c.1))
  straightLt _ _ _ _ := false

/-- Twice the area, positive for a clockwise polygon (`geom/polygon.py:184-201`). -/
def area2 (w : List (ℤ × ℤ)) : ℤ := ((steps (w ++ w.take 1)).map fun e => e.2.1 * e.1.2 - e.1.1 * e.2.2).sum

/-- `polygon.area(face) > 0`. -/
def clockwiseZ (w : List (ℤ × ℤ)) : Bool := 0 < area2 w

/-- A graph from its edges. -/
def graphOf (l : List ((ℤ × ℤ) × (ℤ × ℤ))) : G (ℤ × ℤ) := G.run envZ G.empty (l.map fun e => Op.add e.1 e.2)

/-- A square with a diagonal. -/
def halvedSquare : G (ℤ × ℤ) := graphOf [((0, 0), (4, 0)), ((4, 0), (4, 4)), ((4, 4), (0, 4)), ((0, 4), (0, 0)), ((0, 0), (4, 4))]

/-- The hypotheses of C140 hold for a square with a diagonal, and the two triangles are found. -/
example : halvedSquare.WF ∧ NoDeadEnds halvedSquare ∧ facePolygons envZ halvedSquare clockwiseZ id =
    some (.ok [[(0, 0), (4, 0), (4, 4), (0, 0)], [(0, 0), (4, 4), (0, 4), (0, 0)]]) := by
  refine ⟨(C65_history envZ _).1, ?_, by decide +kernel⟩
  unfold NoDeadEnds
  decide +kernel

/-- A square with two dead ends inside, at opposite corners. -/
def spikedSquare : G (ℤ × ℤ) :=
  graphOf [((0, 0), (4, 0)), ((4, 0), (4, 4)), ((4, 4), (0, 4)), ((0, 4), (0, 0)), ((0, 0), (1, 1)), ((4, 4), (3, 3))]

/-- **C140, refuted (dead ends).**  Two dead ends inside a square are enough for its face not to be found, although the walk round the square is there: counter-clockwise, and
each of its steps an edge. -/
theorem C140_refuted_dead_ends : spikedSquare.WF ∧ facePolygons envZ spikedSquare clockwiseZ id = some (.ok []) ∧
    clockwiseZ [(0, 0), (4, 0), (4, 4), (0, 4), (0, 0)] = false ∧ ∀ e ∈ steps [(0, 0), (4, 0), (4, 4), (0, 4), (0, 0)], spikedSquare.HasEdge e.1 e.2 := by
  refine ⟨(C65_history envZ _).1, by decide +kernel, by decide +kernel, ?_⟩
  unfold G.HasEdge
  decide +kernel

/-- A square with a triangle inside it at one corner. -/
def corneredSquare : G (ℤ × ℤ) :=
  graphOf [((0, 0), (6, 0)), ((6, 0), (6, 6)), ((6, 6), (0, 6)), ((0, 6), (0, 0)), ((0, 0), (2, 1)), ((2, 1), (1, 2)), ((1, 2), (0, 0))]

/-- **C140, refuted (node order).**  With a triangle inside a square at its corner, the polygons depend on the order in which the nodes are taken: starting at the corner the second
face is the whole square, which overlaps the triangle; starting anywhere else the triangle is cut out of it. -/
theorem C140_refuted_order : corneredSquare.WF ∧ NoDeadEnds corneredSquare ∧
    facePolygons envZ corneredSquare clockwiseZ id = some (.ok [[(0, 0), (6, 0), (6, 6), (0, 6), (0, 0)], [(0, 0), (2, 1), (1, 2), (0, 0)]]) ∧
    facePolygons envZ corneredSquare clockwiseZ (fun l => l.drop 1 ++ l.take 1) =
      some (.ok [[(6, 0), (6, 6), (0, 6), (0, 0), (1, 2), (2, 1), (0, 0), (6, 0)], [(2, 1), (1, 2), (0, 0), (2, 1)]]) := by
  refine ⟨(C65_history envZ _).1, ?_, by decide +kernel, by decide +kernel⟩
  unfold NoDeadEnds
  decide +kernel

end Verif.Graph
