import Verif.Cam.Outline
import Verif.Geom.Props7
import Verif.Geom.Props4

/-!
# C138, C139: the outline of the tool marks and the sub-paths
-/

set_option linter.unusedSectionVars false

namespace Verif.Cam
open Verif PyFloat PyTrig Geom

/-- Specification: each line starts exactly where the one before it ends. -/
def Unbroken (ls : List (Line ℝ)) : Prop := ls.IsChain fun l m => l.p2 = m.p1

/-- Specification: a connected path from `a` to `b`. -/
def Leads (a b : P ℝ) (ls : List (Line ℝ)) : Prop := Unbroken ls ∧ ls.head?.map Line.p1 = some a ∧ ls.getLast?.map Line.p2 = some b

/-- Specification: two points are the same or clearly apart. -/
def SameOrApart (eps : ℝ) (p q : P ℝ) : Prop := p = q ∨ eps ^ 2 ≤ sqDist q p

theorem ne_iff (eps : ℝ) (p q : P ℝ) : p.ne eps q = true ↔ eps ^ 2 ≤ sqDist p q := by
  show (!(p.eq eps q)) = true ↔ _
  rw [Bool.not_eq_true', eq_false_iff]

theorem ne_self (eps : ℝ) (heps : 0 < eps) (p : P ℝ) : p.ne eps p = false := by
  rw [← Bool.not_eq_true, ne_iff]
  have : sqDist p p = 0 := by simp [sqDist]
  rw [this, not_le]; positivity

/-! ## The path through the points -/

theorem leads_snoc {a b c : P ℝ} {ls : List (Line ℝ)} (h : Leads a b ls) : Leads a c (ls ++ [⟨b, c⟩]) := by
  obtain ⟨h1, h2, h3⟩ := h
  refine ⟨?_, ?_, by simp⟩
  · unfold Unbroken
    rw [List.isChain_append]
    refine ⟨h1, List.isChain_singleton _, fun x hx y hy => ?_⟩
    rw [Option.mem_def] at hx
    rw [hx] at h3
    simp at h3 hy
    rw [← hy]; exact h3
  · cases ls with
    | nil => simp at h2
    | cons l ls => simpa using h2

theorem leads_change {a b c : P ℝ} {l : Line ℝ} {ls : List (Line ℝ)} (h : Leads a b (ls ++ [l])) : Leads a c (ls ++ [⟨l.p1, c⟩]) := by
  obtain ⟨h1, h2, -⟩ := h
  refine ⟨?_, ?_, by simp⟩
  · unfold Unbroken at *
    rw [List.isChain_append] at *
    refine ⟨h1.1, List.isChain_singleton _, fun x hx y hy => ?_⟩
    simp at hy
    rw [← hy]
    exact h1.2.2 x hx l (by simp)
  · cases ls with
    | nil => simpa using h2
    | cons k ls => simpa using h2

theorem outlineLoop_leads (eps : ℝ) (heps : 0 < eps) (a : P ℝ) : ∀ (qs : List (P ℝ)) (path : List (Line ℝ)) (prev : P ℝ),
    (path ≠ [] → Leads a prev path.reverse) → (path = [] → prev = a) → (prev :: qs).IsChain (SameOrApart eps) →
    (outlineLoop eps path prev qs = [] ∧ path = [] ∧ ∀ q ∈ qs, q = a) ∨
      (outlineLoop eps path prev qs ≠ [] ∧ ∃ b, (prev :: qs).getLast? = some b ∧ Leads a b (outlineLoop eps path prev qs))
  | [], path, prev, h1, h2, _ => by
    by_cases hp : path = []
    · left; subst hp; exact ⟨rfl, rfl, by simp⟩
    · right
      exact ⟨by simpa [outlineLoop] using hp, prev, rfl, h1 hp⟩
  | q :: qs, path, prev, h1, h2, hc => by
    obtain ⟨hs, hc'⟩ := List.isChain_cons_cons.1 hc
    rw [List.getLast?_cons_cons]
    rcases hs with rfl | hs
    · rw [outlineLoop, if_neg (by rw [ne_self eps heps]; simp)]
      rcases outlineLoop_leads eps heps a qs path prev h1 h2 hc' with ⟨e1, e2, e3⟩ | h
      · left
        refine ⟨e1, e2, fun x hx => ?_⟩
        rcases List.mem_cons.1 hx with rfl | hx
        · exact h2 e2
        · exact e3 x hx
      · right; exact h
    · rw [outlineLoop, if_pos ((ne_iff eps q prev).2 hs)]
      right
      have go : ∀ path' : List (Line ℝ), path' ≠ [] → Leads a q path'.reverse →
          (outlineLoop eps path' q qs ≠ [] ∧ ∃ b, (q :: qs).getLast? = some b ∧ Leads a b (outlineLoop eps path' q qs)) := by
        intro path' hne hl
        rcases outlineLoop_leads eps heps a qs path' q (fun _ => hl) (fun h => absurd h hne) hc' with ⟨-, e2, -⟩ | h
        · exact absurd e2 hne
        · exact h
      cases path with
      | nil =>
        rw [outlineStep]
        exact go _ (by simp) (by rw [h2 rfl]; exact ⟨List.isChain_singleton _, rfl, rfl⟩)
      | cons l ls =>
        have hl := h1 (by simp)
        rw [outlineStep]
        by_cases hw : l.whichSide eps q true = 0
        · rw [if_pos hw]
          rw [List.reverse_cons] at hl
          exact go _ (by simp) (by rw [List.reverse_cons]; exact leads_change hl)
        · rw [if_neg hw]
          exact go _ (by simp) (by rw [List.reverse_cons]; exact leads_snoc hl)

/-! ## Collapsing loops -/

theorem firstCross_spec (eps : ℝ) (l1 : Line ℝ) : ∀ (ls : List (Line ℝ)) (j : Nat) (p : P ℝ) (l2 : Line ℝ) (k : Nat),
    firstCross eps l1 j ls = some (p, l2, k) → j ≤ k ∧ ls[k - j]? = some l2 ∧ l1.intersection eps l2 true = some p
  | [], j, p, l2, k, h => by simp [firstCross] at h
  | l :: ls, j, p, l2, k, h => by
    rw [firstCross] at h
    cases hi : l1.intersection eps l true with
    | some x =>
      rw [hi] at h
      simp only [Option.some.injEq, Prod.mk.injEq] at h
      obtain ⟨rfl, rfl, rfl⟩ := h
      exact ⟨le_rfl, by simp, hi⟩
    | none =>
      rw [hi] at h
      obtain ⟨h1, h2, h3⟩ := firstCross_spec eps l1 ls (j + 1) p l2 k h
      refine ⟨by omega, ?_, h3⟩
      rw [show k - j = (k - (j + 1)) + 1 by omega, List.getElem?_cons_succ]
      exact h2

theorem fixIntersections_drop (eps : ℝ) : ∀ (k : Nat) (ls : List (Line ℝ)), fixIntersections eps k ls = fixIntersections eps 0 (ls.drop k)
  | 0, ls => rfl
  | k + 1, [] => by simp [fixIntersections]
  | k + 1, l :: ls => by rw [fixIntersections, fixIntersections_drop eps k ls]; rfl

theorem connected_drop {ls : List (Line ℝ)} (h : Unbroken ls) (k : Nat) : Unbroken (ls.drop k) := List.IsChain.drop h k

/-- Specification: a vertex of the path, or a point where two of its lines cross (to within `eps` of their length). -/
def VertexOrCrossing (eps : ℝ) (ls : List (Line ℝ)) (p : P ℝ) : Prop :=
  (∃ l ∈ ls, p = l.p1 ∨ p = l.p2) ∨
    ∃ l ∈ ls, ∃ m ∈ ls, ∃ s t, p = segPt l s ∧ p = segPt m t ∧ -eps ≤ s ∧ s ≤ 1 + eps ∧ -eps ≤ t ∧ t ≤ 1 + eps

theorem VertexOrCrossing.mono {eps : ℝ} {ls ms : List (Line ℝ)} (hsub : ∀ l ∈ ls, l ∈ ms) {p : P ℝ} (h : VertexOrCrossing eps ls p) :
    VertexOrCrossing eps ms p := by
  rcases h with ⟨l, hl, h⟩ | ⟨l, hl, m, hm, h⟩
  · exact .inl ⟨l, hsub l hl, h⟩
  · exact .inr ⟨l, hsub l hl, m, hsub m hm, h⟩

theorem fixIntersections_spec (eps : ℝ) (heps : 0 < eps) (n : Nat) : ∀ (ls : List (Line ℝ)), ls.length ≤ n → Unbroken ls →
    Unbroken (fixIntersections eps 0 ls) ∧ (fixIntersections eps 0 ls).head?.map Line.p1 = ls.head?.map Line.p1 ∧
      (fixIntersections eps 0 ls).getLast?.map Line.p2 = ls.getLast?.map Line.p2 ∧
      ∀ l ∈ fixIntersections eps 0 ls, VertexOrCrossing eps ls l.p1 ∧ VertexOrCrossing eps ls l.p2 := by
  induction n with
  | zero =>
    intro ls hn _
    have : ls = [] := List.length_eq_zero_iff.1 (by omega)
    subst this
    exact ⟨List.isChain_nil, rfl, rfl, by simp [fixIntersections]⟩
  | succ n ih =>
    intro ls hn hc
    cases ls with
    | nil => exact ⟨List.isChain_nil, rfl, rfl, by simp [fixIntersections]⟩
    | cons l1 rest =>
      rw [fixIntersections]
      have hc1 : Unbroken rest := connected_drop hc 1
      cases hf : firstCross eps l1 0 (rest.drop 1) with
      | none =>
        dsimp only
        obtain ⟨h1, h2, h3, h4⟩ := ih rest (by simp at hn; omega) hc1
        refine ⟨?_, rfl, ?_, ?_⟩
        · unfold Unbroken
          rw [List.isChain_cons]
          refine ⟨fun y hy => ?_, h1⟩
          rw [Option.mem_def] at hy
          rw [hy] at h2
          cases rest with
          | nil => simp at h2
          | cons r rest =>
            simp at h2
            rw [h2]
            exact (List.isChain_cons_cons.1 hc).1
        · cases rest with
          | nil => simp [fixIntersections]
          | cons r rest =>
            rw [List.getLast?_cons_cons, ← h3]
            cases hx : fixIntersections eps 0 (r :: rest) with
            | nil => rw [hx] at h2; simp at h2
            | cons y ys => rw [List.getLast?_cons_cons]
        · intro l hl
          rcases List.mem_cons.1 hl with rfl | hl
          · exact ⟨.inl ⟨l, by simp, .inl rfl⟩, .inl ⟨l, by simp, .inr rfl⟩⟩
          · obtain ⟨g1, g2⟩ := h4 l hl
            exact ⟨g1.mono (fun x hx => by simp [hx]), g2.mono (fun x hx => by simp [hx])⟩
      | some r =>
        obtain ⟨p, l2, j⟩ := r
        dsimp only
        obtain ⟨-, hj, hi⟩ := firstCross_spec eps l1 _ _ _ _ _ hf
        rw [Nat.sub_zero, List.getElem?_drop] at hj
        rw [fixIntersections_drop]
        have hlt : 1 + j < rest.length := (List.getElem?_eq_some_iff.1 hj).1
        have hsplit : rest = rest.take (1 + j) ++ l2 :: rest.drop (j + 2) := by
          have e : rest.drop (1 + j) = l2 :: rest.drop (1 + j + 1) := by
            rw [List.drop_eq_getElem_cons hlt]
            congr 1
            exact (List.getElem?_eq_some_iff.1 hj).2
          conv_lhs => rw [← List.take_append_drop (1 + j) rest, e]
          rw [show 1 + j + 1 = j + 2 by omega]
        obtain ⟨h1, h2, h3, h4⟩ := ih (rest.drop (j + 2)) (by simp at hn; rw [List.length_drop]; omega) (connected_drop hc1 _)
        have hcross : VertexOrCrossing eps (l1 :: rest) p := by
          obtain ⟨s, t, e1, e2, -, e4, e5⟩ := (C55_intersection eps heps l1 l2 true false false).1 p hi
          have e4 := e4 rfl
          have e5 := e5 rfl
          unfold OutsideSeg at e4 e5
          push Not at e4 e5
          exact .inr ⟨l1, by simp, l2, by rw [hsplit]; simp, s, t, e1, e2, e4.1, e4.2, e5.1, e5.2⟩
        have hc2 : Unbroken (l2 :: rest.drop (j + 2)) := by
          rw [hsplit] at hc1
          exact (List.isChain_append.1 hc1).2.1
        refine ⟨?_, rfl, ?_, ?_⟩
        · unfold Unbroken
          rw [List.isChain_cons_cons]
          refine ⟨rfl, ?_⟩
          rw [List.isChain_cons]
          refine ⟨fun y hy => ?_, h1⟩
          rw [Option.mem_def] at hy
          rw [hy] at h2
          cases hr : rest.drop (j + 2) with
          | nil => rw [hr] at h2; simp at h2
          | cons r rs =>
            rw [hr] at h2 hc2
            simp at h2
            rw [h2]
            exact (List.isChain_cons_cons.1 hc2).1
        · have eR : (l1 :: rest).getLast? = (l2 :: rest.drop (j + 2)).getLast? := by
            conv_lhs => rw [hsplit]
            rw [← List.cons_append, List.getLast?_append]
            simp [List.getLast?_cons]
          rw [eR]
          rw [List.getLast?_cons_cons]
          cases hr : rest.drop (j + 2) with
          | nil => simp [fixIntersections]
          | cons r rs =>
            rw [List.getLast?_cons_cons, ← hr, ← h3]
            cases hx : fixIntersections eps 0 (rest.drop (j + 2)) with
            | nil => rw [hx, hr] at h2; simp at h2
            | cons y ys => rw [List.getLast?_cons_cons]
        · intro l hl
          rcases List.mem_cons.1 hl with rfl | hl
          · exact ⟨.inl ⟨l1, by simp, .inl rfl⟩, hcross⟩
          · rcases List.mem_cons.1 hl with rfl | hl
            · exact ⟨hcross, .inl ⟨l2, by rw [hsplit]; simp, .inr rfl⟩⟩
            · obtain ⟨g1, g2⟩ := h4 l hl
              have hs : ∀ x ∈ rest.drop (j + 2), x ∈ l1 :: rest := fun x hx => List.mem_cons_of_mem _ (List.mem_of_mem_drop hx)
              exact ⟨g1.mono hs, g2.mono hs⟩

/-- **C138**, loops: from every connected path the collapsing of loops makes a connected path with the same ends, all of whose vertices are vertices of the path
or points where two of its lines cross. -/
theorem C138_loops_partial (eps : ℝ) (heps : 0 < eps) (a b : P ℝ) (ls : List (Line ℝ)) (h : Leads a b ls) :
    Leads a b (fixIntersections eps 0 ls) ∧ ∀ l ∈ fixIntersections eps 0 ls, VertexOrCrossing eps ls l.p1 ∧ VertexOrCrossing eps ls l.p2 := by
  obtain ⟨h1, h2, h3, h4⟩ := fixIntersections_spec eps heps ls.length ls le_rfl h.1
  exact ⟨⟨h1, h2.trans h.2.1, h3.trans h.2.2⟩, h4⟩

/-! ## Reversals -/

theorem searchRight_last (eps : ℝ) (l1 : Line ℝ) : ∀ (ls : List (Line ℝ)) (cur : Line ℝ) (j : Nat),
    (∃ (k : Nat) (l : Line ℝ), ls[k]? = some l ∧ searchRight eps l1 cur j ls = (⟨l1.p2, l.p2⟩, j + k)) ∨
      (searchRight eps l1 cur j ls = (ls.getLastD cur, 0))
  | [], cur, j => .inr rfl
  | l :: ls, cur, j => by
    rw [searchRight]
    split_ifs with h
    · exact .inl ⟨0, l, rfl, rfl⟩
    · rcases searchRight_last eps l1 ls l (j + 1) with ⟨k, m, e1, e2⟩ | h
      · exact .inl ⟨k + 1, m, by simpa using e1, by rw [e2]; congr 1; omega⟩
      · right; rw [h]; cases ls <;> simp [List.getLast?_cons]

theorem searchLeft_last (eps : ℝ) : ∀ (ls : List (Line ℝ)) (l1 cur : Line ℝ) (j : Nat),
    (searchLeft eps l1 cur j ls).1.p1 = l1.p1 ∧
    ((∃ (k : Nat) (l : Line ℝ), ls[k]? = some l ∧ (searchLeft eps l1 cur j ls).2 = (l, j + k)) ∨
      (searchLeft eps l1 cur j ls).2 = (ls.getLastD cur, 0))
  | [], l1, cur, j => ⟨rfl, .inr rfl⟩
  | l :: ls, l1, cur, j => by
    rw [searchLeft]
    split_ifs with h
    · exact ⟨rfl, .inl ⟨0, l, rfl, rfl⟩⟩
    · obtain ⟨h1, h2⟩ := searchLeft_last eps ls ⟨l1.p1, l.p1⟩ l (j + 1)
      refine ⟨h1, ?_⟩
      rcases h2 with ⟨k, m, e1, e2⟩ | h
      · exact .inl ⟨k + 1, m, by simpa using e1, by rw [e2]; congr 1; omega⟩
      · right; rw [h]; cases ls <;> simp [List.getLast?_cons]

theorem fixReversalsLoop_ends (eps : ℝ) (b : P ℝ) : ∀ (rest : List (Line ℝ)) (l1 : Line ℝ) (skip : Nat),
    (rest.length ≤ skip → l1.p2 = b) → (rest ≠ [] → rest.getLast?.map Line.p2 = some b) →
    (fixReversalsLoop eps l1 skip rest).head?.map Line.p1 = some l1.p1 ∧ (fixReversalsLoop eps l1 skip rest).getLast?.map Line.p2 = some b
  | [], l1, skip, h1, _ => by
    unfold fixReversalsLoop
    simpa using h1 (by simp)
  | l2 :: rest, l1, skip + 1, h1, h2 => by
    rw [fixReversalsLoop]
    refine fixReversalsLoop_ends eps b rest l1 skip (fun h => h1 (by simpa using h)) (fun hne => ?_)
    rw [← h2 (by simp)]
    cases rest with
    | nil => simp at hne
    | cons r rest => rw [List.getLast?_cons_cons]
  | l2 :: rest, l1, 0, h1, h2 => by
    have h2 := h2 (by simp)
    have tail : rest ≠ [] → rest.getLast?.map Line.p2 = some b := by
      intro hne
      rw [← h2]
      cases rest with
      | nil => simp at hne
      | cons r rest => rw [List.getLast?_cons_cons]
    have hlastD : ((l2 :: rest).getLastD l2).p2 = b := by
      rw [List.getLastD_eq_getLast?]
      cases h : (l2 :: rest).getLast? with
      | none => simp at h
      | some x => rw [h] at h2; simpa using h2
    have hk : ∀ (k : Nat) (l : Line ℝ), (l2 :: rest)[k]? = some l → rest.length ≤ k → l.p2 = b := by
      intro k l hk hle
      have hlt : k < (l2 :: rest).length := (List.getElem?_eq_some_iff.1 hk).1
      have : k = (l2 :: rest).length - 1 := by simp at hlt ⊢; omega
      rw [List.getLast?_eq_getElem?, ← this, hk] at h2
      simpa using h2
    have join : ∀ (x : Line ℝ) (ys : List (Line ℝ)), ys.getLast?.map Line.p2 = some b → (x :: ys).getLast?.map Line.p2 = some b := by
      intro x ys h
      cases ys with
      | nil => simp at h
      | cons y ys => rw [List.getLast?_cons_cons]; exact h
    rw [fixReversalsLoop]
    split_ifs with c1 c2
    · refine ⟨rfl, join _ _ ?_⟩
      rcases searchRight_last eps l1 (l2 :: rest) l2 0 with ⟨k, l, e1, e2⟩ | e
      · rw [e2]
        exact (fixReversalsLoop_ends eps b rest ⟨l1.p2, l.p2⟩ (0 + k) (fun h => hk k l e1 (by simpa using h)) tail).2
      · rw [e]
        exact (fixReversalsLoop_ends eps b rest _ _ (fun h => hlastD) tail).2
    · obtain ⟨e0, e⟩ := searchLeft_last eps (l2 :: rest) l1 l2 0
      refine ⟨by simp [e0], join _ _ ?_⟩
      rcases e with ⟨k, l, e1, e2⟩ | e
      · rw [e2]
        exact (fixReversalsLoop_ends eps b rest _ _ (fun h => hk k l e1 (by simpa using h)) tail).2
      · rw [e]
        exact (fixReversalsLoop_ends eps b rest _ _ (fun h => hlastD) tail).2
    · refine ⟨rfl, join _ _ ?_⟩
      refine (fixReversalsLoop_ends eps b rest _ _ (fun h => ?_) tail).2
      have : rest = [] := List.length_eq_zero_iff.1 (by omega)
      subst this
      simpa using h2

/-- **C138**, ends: whatever the points (each the same as the one before it or clearly apart from it, and not all the same), the outline begins at the first
point and ends at the last one. -/
theorem C138_ends_partial (eps : ℝ) (heps : 0 < eps) (a : P ℝ) (ps : List (P ℝ)) (b : P ℝ) (hlast : (a :: ps).getLast? = some b)
    (hc : (a :: ps).IsChain (SameOrApart eps)) (hmove : ∃ q ∈ ps, q ≠ a) :
    ∃ l ls, makeOutlinePath eps (a :: ps) = .ok (l :: ls) ∧ l.p1 = a ∧ (l :: ls).getLast?.map Line.p2 = some b := by
  cases ps with
  | nil => obtain ⟨q, hq, -⟩ := hmove; simp at hq
  | cons q qs =>
    rcases outlineLoop_leads eps heps a (q :: qs) [] a (fun h => absurd rfl h) (fun _ => rfl) hc with ⟨-, -, e⟩ | ⟨-, b', hb, hl⟩
    · obtain ⟨x, hx, hne⟩ := hmove
      exact absurd (e x hx) hne
    · rw [hlast] at hb
      obtain rfl := Option.some.inj hb
      obtain ⟨⟨-, hf1, hf2⟩, -⟩ := C138_loops_partial eps heps a b _ hl
      rw [makeOutlinePath]
      cases hF : fixIntersections eps 0 (outlineLoop eps [] a (q :: qs)) with
      | nil => rw [hF] at hf1; simp at hf1
      | cons m ms =>
        rw [hF] at hf1 hf2
        simp at hf1
        have := fixReversalsLoop_ends eps b ms m 0 (fun h => by
            have : ms = [] := List.length_eq_zero_iff.1 (by omega)
            subst this; simpa using hf2) (fun hne => by
            rw [← hf2]
            cases ms with
            | nil => simp at hne
            | cons r ms => rw [List.getLast?_cons_cons])
        obtain ⟨g1, g2⟩ := this
        rw [fixReversals]
        cases hR : fixReversalsLoop eps m 0 ms with
        | nil => rw [hR] at g1; simp at g1
        | cons x xs =>
          rw [hR] at g1 g2
          simp at g1
          exact ⟨x, xs, rfl, by rw [g1, hf1], g2⟩

/-- Specification: the second line continues the first one, turning by at most a right angle. -/
def TurnsAtMostRight (l m : Line ℝ) : Prop := 0 ≤ (l.p2.x - l.p1.x) * (m.p2.x - m.p1.x) + (l.p2.y - l.p1.y) * (m.p2.y - m.p1.y)

theorem corner_abs (eps : ℝ) (l : Line ℝ) (q : P ℝ) (h : eps ^ 2 ≤ sqDist l.p1 q) :
    |cornerAngle eps l q| < Real.pi / 2 ↔
      (0 < (l.p1.x - l.p2.x) * (q.x - l.p2.x) + (l.p1.y - l.p2.y) * (q.y - l.p2.y) ∨
        ((l.p1.x - l.p2.x) * (q.x - l.p2.x) + (l.p1.y - l.p2.y) * (q.y - l.p2.y) = 0 ∧
          (l.p1.x - l.p2.x) * (q.y - l.p2.y) - (q.x - l.p2.x) * (l.p1.y - l.p2.y) = 0)) := by
  unfold cornerAngle
  rw [angle2_real eps l.p2 l.p1 q h]
  show |Complex.arg ⟨_, _⟩| < _ ↔ _
  rw [Complex.abs_arg_lt_pi_div_two_iff]
  constructor
  · rintro (h | h)
    · exact .inl h
    · exact .inr ⟨congrArg Complex.re h, congrArg Complex.im h⟩
  · rintro (h | ⟨h1, h2⟩)
    · exact .inl h
    · exact .inr (Complex.ext h1 h2)

/-- Where the path turns by at most a right angle nothing is changed. -/
theorem fixReversals_forward (eps : ℝ) (heps : 0 < eps) : ∀ (ls : List (Line ℝ)) (l : Line ℝ), Unbroken (l :: ls) → (∀ m ∈ l :: ls, eps ^ 2 ≤ sqDist m.p1 m.p2) →
    (l :: ls).IsChain TurnsAtMostRight → fixReversalsLoop eps l 0 ls = l :: ls
  | [], l, _, _, _ => rfl
  | m :: ls, l, hc, hlen, ht => by
    obtain ⟨c1, c2⟩ := List.isChain_cons_cons.1 hc
    obtain ⟨t1, t2⟩ := List.isChain_cons_cons.1 ht
    have ih := fixReversals_forward eps heps ls m c2 (fun x hx => hlen x (by simp [hx])) t2
    rw [fixReversalsLoop]
    have hl := hlen l (by simp)
    have hm := hlen m (by simp)
    unfold TurnsAtMostRight at t1
    rw [← c1] at t1
    unfold sqDist at hl hm
    rw [← c1] at hm
    have e2 : 0 < eps ^ 2 := by positivity
    have hq : eps ^ 2 ≤ sqDist l.p1 m.p2 := by
      unfold sqDist; nlinarith
    have hn : ¬ (PyFloat.abs (cornerAngle eps l m.p2) <. (PyFloat.pi : ℝ) /. ofInt 2) = true := by
      simp only [real_lt, real_abs, real_pi, real_div, real_ofInt, decide_eq_true_eq]
      push_cast
      rw [corner_abs eps l m.p2 hq]
      rintro (h | ⟨h1, h2⟩)
      · nlinarith
      · have h0 : ((l.p1.x - l.p2.x) ^ 2 + (l.p1.y - l.p2.y) ^ 2) * ((l.p2.x - m.p2.x) ^ 2 + (l.p2.y - m.p2.y) ^ 2) = 0 := by
          have : ((l.p1.x - l.p2.x) ^ 2 + (l.p1.y - l.p2.y) ^ 2) * ((l.p2.x - m.p2.x) ^ 2 + (l.p2.y - m.p2.y) ^ 2) =
              ((l.p1.x - l.p2.x) * (m.p2.x - l.p2.x) + (l.p1.y - l.p2.y) * (m.p2.y - l.p2.y)) ^ 2 +
              ((l.p1.x - l.p2.x) * (m.p2.y - l.p2.y) - (m.p2.x - l.p2.x) * (l.p1.y - l.p2.y)) ^ 2 := by ring
          rw [this, h1, h2]; ring
        rcases mul_eq_zero.1 h0 with h | h <;> linarith
    rw [if_neg hn, ih]

/-- **C138**, the part that holds: if the path, after the collapsing of its loops, turns nowhere by more than a right angle (and has no lines of no length), then the outline is
this path, and it is connected and leads from the first point to the last one. -/
theorem C138_connected_partial (eps : ℝ) (heps : 0 < eps) (a : P ℝ) (ps : List (P ℝ)) (b : P ℝ) (hlast : (a :: ps).getLast? = some b)
    (hc : (a :: ps).IsChain (SameOrApart eps)) (hmove : ∃ q ∈ ps, q ≠ a) :
    ∃ path, Leads a b path ∧ Leads a b (fixIntersections eps 0 path) ∧
      ((∀ m ∈ fixIntersections eps 0 path, eps ^ 2 ≤ sqDist m.p1 m.p2) → (fixIntersections eps 0 path).IsChain TurnsAtMostRight →
        makeOutlinePath eps (a :: ps) = .ok (fixIntersections eps 0 path)) := by
  cases ps with
  | nil => obtain ⟨q, hq, -⟩ := hmove; simp at hq
  | cons q qs =>
    rcases outlineLoop_leads eps heps a (q :: qs) [] a (fun h => absurd rfl h) (fun _ => rfl) hc with ⟨-, -, e⟩ | ⟨-, b', hb, hl⟩
    · obtain ⟨x, hx, hne⟩ := hmove
      exact absurd (e x hx) hne
    · rw [hlast] at hb
      obtain rfl := Option.some.inj hb
      obtain ⟨hf, -⟩ := C138_loops_partial eps heps a b _ hl
      refine ⟨_, hl, hf, fun h1 h2 => ?_⟩
      rw [makeOutlinePath]
      cases hF : fixIntersections eps 0 (outlineLoop eps [] a (q :: qs)) with
      | nil => rw [hF] at hf; have := hf.2.1; simp at this
      | cons m ms =>
        rw [hF] at h1 h2 hf
        rw [fixReversals, fixReversals_forward eps heps ms m hf.1 h1 h2]

/-- A staircase of right angles meets all the hypotheses: clearly apart, connected, turning by right angles. -/
example : ([(⟨0, 0⟩ : P ℝ), ⟨1, 0⟩, ⟨1, 1⟩, ⟨2, 1⟩]).IsChain (SameOrApart 1) ∧ Leads ⟨0, 0⟩ ⟨2, 1⟩ [⟨⟨0, 0⟩, ⟨1, 0⟩⟩, ⟨⟨1, 0⟩, ⟨1, 1⟩⟩, ⟨⟨1, 1⟩, ⟨2, 1⟩⟩] ∧
    ([⟨⟨0, 0⟩, ⟨1, 0⟩⟩, ⟨⟨1, 0⟩, ⟨1, 1⟩⟩, ⟨⟨1, 1⟩, ⟨2, 1⟩⟩] : List (Line ℝ)).IsChain TurnsAtMostRight := by
  refine ⟨?_, ?_, ?_⟩
  · simp [SameOrApart, sqDist]; norm_num
  · simp [Leads, Unbroken]
  · simp [TurnsAtMostRight]

/-- A part of **C138** that fails: an error, for every number of points that are all the same. -/
theorem C138_refuted_crash (eps : ℝ) (heps : 0 < eps) (a : P ℝ) (n : Nat) : makeOutlinePath eps (a :: a :: List.replicate n a) = .error .indexError := by
  have h : ∀ n, outlineLoop eps [] a (List.replicate n a) = [] := by
    intro n
    induction n with
    | zero => rfl
    | succ n ih => rw [List.replicate_succ, outlineLoop, if_neg (by rw [ne_self eps heps]; simp), ih]
  rw [makeOutlinePath, ← List.replicate_succ, h (n + 1)]
  rfl

theorem corner_right {eps : ℝ} {l : Line ℝ} {q : P ℝ} (h : eps ^ 2 ≤ sqDist l.p1 q)
    (hd : 0 < (l.p1.x - l.p2.x) * (q.x - l.p2.x) + (l.p1.y - l.p2.y) * (q.y - l.p2.y)) :
    |cornerAngle eps l q| < Real.pi / 2 := (corner_abs eps l q h).2 (.inl hd)

theorem corner_zero {eps : ℝ} {l : Line ℝ} {q : P ℝ} (h : eps ^ 2 ≤ sqDist l.p1 q) (hz : l.p1 = l.p2 ∨ q = l.p2) : cornerAngle eps l q = 0 := by
  unfold cornerAngle
  rw [angle2_real eps l.p2 l.p1 q h]
  show Complex.arg ⟨_, _⟩ = _
  rcases hz with hz | hz <;> rw [hz] <;> simp [Complex.arg]

/-- A part of **C138** that fails: after a turn back that is not followed by a turn forward, the outline is not connected. -/
theorem C138_refuted_gap (eps : ℝ) (heps : 0 < eps) (h1 : eps < 1) :
    makeOutlinePath eps [(⟨0, 0⟩ : P ℝ), ⟨2, 0⟩, ⟨1, -1⟩, ⟨0, -1⟩] = .ok [⟨⟨0, 0⟩, ⟨2, 0⟩⟩, ⟨⟨1, -1⟩, ⟨1, -1⟩⟩, ⟨⟨1, -1⟩, ⟨0, -1⟩⟩] ∧
      ¬ Unbroken [⟨⟨0, 0⟩, ⟨2, 0⟩⟩, ⟨⟨1, -1⟩, ⟨1, -1⟩⟩, ⟨⟨1, -1⟩, ⟨0, -1⟩⟩] := by
  have e1 : eps ^ 2 < 1 := by nlinarith
  constructor
  · have ho : outlineLoop eps [] (⟨0, 0⟩ : P ℝ) [⟨2, 0⟩, ⟨1, -1⟩, ⟨0, -1⟩] = [⟨⟨0, 0⟩, ⟨2, 0⟩⟩, ⟨⟨2, 0⟩, ⟨1, -1⟩⟩, ⟨⟨1, -1⟩, ⟨0, -1⟩⟩] := by
      have n1 : (⟨2, 0⟩ : P ℝ).ne eps ⟨0, 0⟩ = true := (ne_iff _ _ _).2 (by simp only [sqDist]; linarith)
      have n2 : (⟨1, -1⟩ : P ℝ).ne eps ⟨2, 0⟩ = true := (ne_iff _ _ _).2 (by simp only [sqDist]; linarith)
      have n3 : (⟨0, -1⟩ : P ℝ).ne eps ⟨1, -1⟩ = true := (ne_iff _ _ _).2 (by simp only [sqDist]; linarith)
      have w1 : Line.whichSide eps (⟨⟨0, 0⟩, ⟨2, 0⟩⟩ : Line ℝ) ⟨1, -1⟩ true ≠ 0 := by
        have : Geom.isZero eps (((⟨2, 0⟩ : P ℝ).sub ⟨0, 0⟩).cross ((⟨1, -1⟩ : P ℝ).sub ⟨0, 0⟩)) = false := by
          rw [← Bool.not_eq_true, isZero_iff]
          norm_num [P.cross, P.sub]; linarith
        unfold Line.whichSide
        simp only [this, Bool.and_false, Bool.false_eq_true, if_false]
        split_ifs <;> decide
      have w2 : Line.whichSide eps (⟨⟨2, 0⟩, ⟨1, -1⟩⟩ : Line ℝ) ⟨0, -1⟩ true ≠ 0 := by
        have : Geom.isZero eps (((⟨1, -1⟩ : P ℝ).sub ⟨2, 0⟩).cross ((⟨0, -1⟩ : P ℝ).sub ⟨2, 0⟩)) = false := by
          rw [← Bool.not_eq_true, isZero_iff]
          norm_num [P.cross, P.sub]; linarith
        unfold Line.whichSide
        simp only [this, Bool.and_false, Bool.false_eq_true, if_false]
        split_ifs <;> decide
      rw [outlineLoop, if_pos n1, outlineStep, outlineLoop, if_pos n2, outlineStep, if_neg w1, outlineLoop, if_pos n3, outlineStep, if_neg w2]
      rfl
    have hi : Line.intersection eps (⟨⟨0, 0⟩, ⟨2, 0⟩⟩ : Line ℝ) ⟨⟨1, -1⟩, ⟨0, -1⟩⟩ true = none := by
      unfold Line.intersection Line.intersectionMu Line.denom
      norm_num
      exact fun h => absurd heps (not_lt.2 h)
    have hf : fixIntersections eps 0 [(⟨⟨0, 0⟩, ⟨2, 0⟩⟩ : Line ℝ), ⟨⟨2, 0⟩, ⟨1, -1⟩⟩, ⟨⟨1, -1⟩, ⟨0, -1⟩⟩] = [⟨⟨0, 0⟩, ⟨2, 0⟩⟩, ⟨⟨2, 0⟩, ⟨1, -1⟩⟩, ⟨⟨1, -1⟩, ⟨0, -1⟩⟩] := by
      simp [fixIntersections, firstCross, hi]
    rw [makeOutlinePath, ho, hf, fixReversals]
    congr 1
    -- the first corner
    have small : ∀ x : ℝ, |x| < Real.pi / 2 → (PyFloat.abs x <. (PyFloat.pi : ℝ) /. ofInt 2) = true ∧ ((PyFloat.pi : ℝ) /. ofInt 2 <. PyFloat.abs x) = false := by
      intro x hx
      simp only [real_lt, real_abs, real_pi, real_div, real_ofInt, decide_eq_true_eq, decide_eq_false_iff_not, not_lt]
      push_cast
      exact ⟨hx, hx.le⟩
    have c1 := corner_right (eps := eps) (l := ⟨⟨0, 0⟩, ⟨2, 0⟩⟩) (q := ⟨1, -1⟩) (by simp only [sqDist]; linarith) (by norm_num)
    have c2 := corner_right (eps := eps) (l := ⟨⟨0, 0⟩, ⟨2, 0⟩⟩) (q := ⟨0, -1⟩) (by simp only [sqDist]; linarith) (by norm_num)
    have c3 : cornerAngle eps (⟨⟨1, -1⟩, ⟨0, -1⟩⟩ : Line ℝ) ⟨0, -1⟩ = 0 := corner_zero (by simp only [sqDist]; linarith) (.inr rfl)
    have c4 : cornerAngle eps (⟨⟨1, -1⟩, ⟨1, -1⟩⟩ : Line ℝ) ⟨0, -1⟩ = 0 := corner_zero (by simp only [sqDist]; linarith) (.inl rfl)
    have pos : 0 < cornerAngle eps (⟨⟨0, 0⟩, ⟨2, 0⟩⟩ : Line ℝ) ⟨1, -1⟩ := by
      unfold cornerAngle
      rw [angle2_real eps _ _ _ (by simp only [sqDist]; linarith)]
      show 0 < Complex.arg ⟨_, _⟩
      rw [lt_iff_le_and_ne]
      constructor
      · rw [Complex.arg_nonneg_iff]; norm_num
      · intro h
        have := Complex.arg_eq_zero_iff.1 h.symm
        norm_num at this
    have z := small 0 (by rw [abs_zero]; have := Real.pi_pos; linarith)
    have s1 : searchRight eps (⟨⟨0, 0⟩, ⟨2, 0⟩⟩ : Line ℝ) ⟨⟨2, 0⟩, ⟨1, -1⟩⟩ 0 [⟨⟨2, 0⟩, ⟨1, -1⟩⟩, ⟨⟨1, -1⟩, ⟨0, -1⟩⟩] = (⟨⟨1, -1⟩, ⟨0, -1⟩⟩, 0) := by
      rw [searchRight, if_neg (by rw [(small _ c1).2]; simp), searchRight, if_neg (by rw [(small _ c2).2]; simp), searchRight]
    have s2 : searchLeft eps (⟨⟨1, -1⟩, ⟨0, -1⟩⟩ : Line ℝ) ⟨⟨1, -1⟩, ⟨0, -1⟩⟩ 0 [⟨⟨1, -1⟩, ⟨0, -1⟩⟩] = (⟨⟨1, -1⟩, ⟨1, -1⟩⟩, ⟨⟨1, -1⟩, ⟨0, -1⟩⟩, 0) := by
      rw [searchLeft, if_neg (by rw [c4, z.2]; simp), searchLeft]
    rw [fixReversalsLoop, if_pos (small _ c1).1, if_pos (by simpa using pos), s1]
    dsimp only
    rw [fixReversalsLoop, if_pos (by rw [c3]; exact z.1), if_neg (by rw [c3]; simp), s2]
    rfl
  · intro h
    have := (List.isChain_cons_cons.1 h).1
    have := congrArg P.x this
    norm_num at this

/-- Parts of **C138** that fail: a loop that is left, since the rest of a line that was cut is not looked at again; and a part of the outline that is lost, since a point
in line with the last line replaces its end even if it is behind it. -/
theorem C138_refuted :
    (∃ ls : List (Line ℚ), ls = fixIntersections (1/1000) 0 [⟨⟨0, 0⟩, ⟨4, 0⟩⟩, ⟨⟨4, 0⟩, ⟨4, 2⟩⟩, ⟨⟨4, 2⟩, ⟨2, -2⟩⟩, ⟨⟨2, -2⟩, ⟨0, -1⟩⟩, ⟨⟨0, -1⟩, ⟨4, -1⟩⟩] ∧
      ls[1]? = some ⟨⟨3, 0⟩, ⟨2, -2⟩⟩ ∧ ls[3]? = some ⟨⟨0, -1⟩, ⟨4, -1⟩⟩ ∧ Line.intersection (1/1000) (⟨⟨3, 0⟩, ⟨2, -2⟩⟩ : Line ℚ) ⟨⟨0, -1⟩, ⟨4, -1⟩⟩ true = some ⟨5/2, -1⟩) ∧
    makeOutlinePath (1/1000) [(⟨0, 0⟩ : P ℚ), ⟨2, 0⟩, ⟨1, 0⟩] = .ok [⟨⟨0, 0⟩, ⟨1, 0⟩⟩] := by
  refine ⟨⟨_, rfl, ?_, ?_, ?_⟩, ?_⟩ <;> decide +kernel

/-- **C138**, turns back to the left: where the way turns back to the left (sharper than a right angle) and then goes forward again, the spike is cut off:
the outline leads straight from the start of the first line to the start of the forward line, and is connected. -/
theorem C138_left_partial (eps : ℝ) (a b c d : P ℝ) (hac : eps ^ 2 ≤ sqDist a c) (had : eps ^ 2 ≤ sqDist a d)
    (back : 0 < (a.x - b.x) * (c.x - b.x) + (a.y - b.y) * (c.y - b.y)) (left : (a.x - b.x) * (c.y - b.y) - (c.x - b.x) * (a.y - b.y) < 0)
    (forward : (a.x - c.x) * (d.x - c.x) + (a.y - c.y) * (d.y - c.y) < 0) :
    fixReversals eps [⟨a, b⟩, ⟨b, c⟩, ⟨c, d⟩] = .ok [⟨a, c⟩, ⟨c, d⟩] := by
  have hp : ∀ x : ℝ, (PyFloat.abs x <. (PyFloat.pi : ℝ) /. ofInt 2) = decide (|x| < Real.pi / 2) ∧ ((PyFloat.pi : ℝ) /. ofInt 2 <. PyFloat.abs x) = decide (Real.pi / 2 < |x|) := by
    intro x
    simp only [real_lt, real_abs, real_pi, real_div, real_ofInt]
    push_cast
    exact ⟨rfl, rfl⟩
  have c1 := corner_right (eps := eps) (l := ⟨a, b⟩) (q := c) hac back
  have neg : ¬ 0 < cornerAngle eps ⟨a, b⟩ c := by
    unfold cornerAngle
    rw [angle2_real eps _ _ _ hac]
    show ¬ 0 < Complex.arg ⟨_, _⟩
    exact not_lt.2 (Complex.arg_neg_iff.2 left).le
  have c2 : Real.pi / 2 < |cornerAngle eps ⟨a, c⟩ d| := by
    unfold cornerAngle
    rw [angle2_real eps _ _ _ had]
    show _ < |Complex.arg ⟨_, _⟩|
    rw [← not_le, Complex.abs_arg_le_pi_div_two_iff, not_le]
    exact forward
  rw [fixReversals, fixReversalsLoop, if_pos (by rw [(hp _).1]; simpa using c1), if_neg (by simpa using neg),
    searchLeft, if_neg (by rw [(hp _).2]; simpa using c1.le), searchLeft, if_pos (by rw [(hp _).2]; simpa using c2)]
  rfl

example : fixReversals (1/1000 : ℝ) [⟨⟨0, 0⟩, ⟨4, 0⟩⟩, ⟨⟨4, 0⟩, ⟨3, 1⟩⟩, ⟨⟨3, 1⟩, ⟨5, 2⟩⟩] = .ok [⟨⟨0, 0⟩, ⟨3, 1⟩⟩, ⟨⟨3, 1⟩, ⟨5, 2⟩⟩] :=
  C138_left_partial _ _ _ _ _ (by norm_num [sqDist]) (by norm_num [sqDist]) (by norm_num) (by norm_num) (by norm_num)

/-- A part of **C138** that fails: a point that is only nearly the same as the one before it is passed over but the next line starts there: the outline has a gap. -/
theorem C138_refuted_near :
    outlineLoop (1/1000) [] (⟨0, 0⟩ : P ℚ) [⟨2, 0⟩, ⟨2, 1/2000⟩, ⟨2, 2⟩] = [⟨⟨0, 0⟩, ⟨2, 0⟩⟩, ⟨⟨2, 1/2000⟩, ⟨2, 2⟩⟩] := by
  decide +kernel

/-! ## C139 -/

theorem subOffsets_from (step len : ℝ) (hs : 0 < step) : ∀ (n : Nat) (k : ℝ), len ≤ k + n * step →
    ∃ m : Nat, (∀ fuel, n + 1 ≤ fuel → subOffsets step len fuel k = some ((List.range m).map fun i : ℕ => k + i * step)) ∧
      (∀ i < m, k + (i : ℝ) * step < len) ∧ len ≤ k + m * step
  | 0, k, h => by
    refine ⟨0, fun fuel hf => ?_, by simp, by simpa using h⟩
    obtain ⟨f, rfl⟩ : ∃ f, fuel = f + 1 := ⟨fuel - 1, by omega⟩
    rw [subOffsets, if_neg (by simp at h; simpa using h)]; rfl
  | n + 1, k, h => by
    by_cases hk : k < len
    · obtain ⟨m, h1, h2, h3⟩ := subOffsets_from step len hs n (k + step) (by push_cast at h; linarith)
      refine ⟨m + 1, fun fuel hf => ?_, ?_, by push_cast; linarith⟩
      · obtain ⟨f, rfl⟩ : ∃ f, fuel = f + 1 := ⟨fuel - 1, by omega⟩
        rw [subOffsets, if_pos (by simpa using hk)]
        simp only [real_add]
        rw [h1 f (by omega), List.range_succ_eq_map]
        simp only [Option.map_some, List.map_cons, List.map_map]
        congr 2
        · simp
        · apply List.map_congr_left
          intro i _
          simp only [Function.comp]; push_cast; ring
      · intro i hi
        rcases i with _ | i
        · simpa using hk
        · have := h2 i (by omega)
          push_cast; linarith
    · push Not at hk
      refine ⟨0, fun fuel hf => ?_, by simp, by simpa using hk⟩
      obtain ⟨f, rfl⟩ : ∃ f, fuel = f + 1 := ⟨fuel - 1, by omega⟩
      rw [subOffsets, if_neg (by simpa using hk)]; rfl

/-- **C139**, the part that holds: for a positive distance the sub-paths are drawn at the multiples of the distance that are less than the width of the tool, all of
them, and the drawing ends. -/
theorem C139_offsets_partial (step len : ℝ) (hs : 0 < step) :
    ∃ n fuel0 : Nat, (∀ fuel, fuel0 ≤ fuel → subOffsets step len fuel step = some ((List.range n).map fun i : ℕ => ((i : ℝ) + 1) * step)) ∧
      ∀ i : ℕ, i < n ↔ ((i : ℝ) + 1) * step < len := by
  obtain ⟨N, hN⟩ := exists_nat_ge (len / step)
  have hN' : len ≤ step + N * step := by
    rw [div_le_iff₀ hs] at hN; linarith
  obtain ⟨m, h1, h2, h3⟩ := subOffsets_from step len hs N step hN'
  refine ⟨m, N + 1, fun fuel hf => ?_, fun i => ⟨fun hi => ?_, fun hi => ?_⟩⟩
  · rw [h1 fuel hf]
    congr 1
    apply List.map_congr_left
    intro i _; ring
  · have := h2 i hi; linarith
  · by_contra hc
    push Not at hc
    have : (m : ℝ) ≤ i := by exact_mod_cast hc
    nlinarith

/-- **C139**, the points: on every tool mark of some width the point of a sub-path is on the line of the mark, and on the mark itself, at the given distance from its
first end, if the distance is not more than the width. -/
theorem C139_points (offset : ℝ) (h0 : 0 ≤ offset) (marks : List (Line ℝ)) (hm : ∀ l ∈ marks, 0 < segLen l) :
    ∃ ps, subPoints offset marks = .ok ps ∧ List.Forall₂ (fun (l : Line ℝ) p => ∃ t, p = segPt l t ∧ 0 ≤ t ∧ (offset ≤ segLen l → t ≤ 1) ∧ Real.sqrt (sqDist l.p1 p) = offset) marks ps := by
  induction marks with
  | nil => exact ⟨[], rfl, .nil⟩
  | cons l ls ih =>
    obtain ⟨ps, h1, h2⟩ := ih fun x hx => hm x (by simp [hx])
    have hl := hm l (by simp)
    refine ⟨segPt l (offset / segLen l) :: ps, ?_, .cons ⟨offset / segLen l, rfl, by positivity, fun h => by rw [div_le_one hl]; exact h, ?_⟩ h2⟩
    · rw [subPoints, length_real, h1]
      have : pdiv offset (segLen l) = .ok (offset / segLen l) := by
        unfold pdiv
        rw [if_neg (by simpa using hl.ne')]; rfl
      rw [this]
      simp only [bind, Except.bind, pure, Except.pure, pointAt_real]
    · have e : sqDist l.p1 (segPt l (offset / segLen l)) = (offset / segLen l) ^ 2 * (segLen l) ^ 2 := by
        have : (segLen l) ^ 2 = sqDist l.p1 l.p2 := by
          unfold segLen; rw [Real.sq_sqrt]; unfold sqDist; positivity
        rw [this]
        simp only [sqDist, segPt]; ring
      rw [e, div_pow, div_mul_cancel₀ _ (by positivity), Real.sqrt_sq h0]

/-- The part of **C139** that fails: with a distance of zero, which is the value the option has if it is not given, or less, the drawing never ends. -/
theorem C139_refuted (step len : ℝ) (hs : step ≤ 0) (hl : 0 < len) (fuel : Nat) : subOffsets step len fuel step = none := by
  have : ∀ (fuel : Nat) (k : ℝ), k ≤ 0 → subOffsets step len fuel k = none := by
    intro fuel
    induction fuel with
    | zero => intro k _; rfl
    | succ n ih =>
      intro k hk
      have : k < len := by linarith
      rw [subOffsets, if_pos (by simpa using this)]
      simp only [real_add]
      rw [ih (k + step) (by linarith)]
      rfl
  exact this fuel step hs

/-- A tool three wide and a distance of one: sub-paths at one and two. -/
example : subOffsets (1 : ℚ) 3 5 1 = some [1, 2] := by decide +kernel

end Verif.Cam
