import Verif.Cam.Props5

/-!
# C30, C31: splitting at cusps, approximating by lines and arcs
-/

set_option linter.unusedSectionVars false

namespace Verif.Cam
open Verif PyFloat PyTrig Geom GCode

/-! ## C30 -/

section
variable {K : Type} [Field K] [LinearOrder K] [IsStrictOrderedRing K] [PyTrig K] [ExactFloat K]

/-- Specification: the junction from `a` to `b` is smooth: the tangent angles agree numerically and neither segment is marked
as not to be joined. -/
def Joined (eps : K) (a b : Seg K) : Prop :=
  |a.shape.endTangent eps - b.shape.startTangent eps| < eps ∧ a.hints.ignoreG1 = false ∧ b.hints.ignoreG1 = false

/-- Specification: the junction from the end of `q` to the start of `q'` is not smooth. -/
def Cusp (eps : K) (q q' : Path K) : Prop := ∀ a b, q.getLast? = some a → q'.head? = some b → ¬ Joined eps a b

theorem joined_iff (eps : K) (a b : Seg K) :
    (!(floatEq eps (a.shape.endTangent eps) (b.shape.startTangent eps)) || a.hints.ignoreG1 || b.hints.ignoreG1) = false
      ↔ Joined eps a b := by
  unfold Joined floatEq
  simp only [Bool.or_eq_false_iff, Bool.not_eq_false']
  py
  tauto

theorem splitLoop_spec (eps : K) (rest : Path K) : ∀ (cur : Path K) (s1 : Seg K),
    (cur ++ [s1]).IsChain (Joined eps) →
    (splitLoop eps cur s1 rest).flatten = cur ++ s1 :: rest ∧
    (∀ q ∈ splitLoop eps cur s1 rest, q ≠ []) ∧
    (∀ q ∈ splitLoop eps cur s1 rest, q.IsChain (Joined eps)) ∧
    (splitLoop eps cur s1 rest).IsChain (Cusp eps) ∧
    ∃ q l, splitLoop eps cur s1 rest = q :: l ∧ q.head? = (cur ++ [s1]).head? := by
  induction rest with
  | nil =>
    intro cur s1 hc
    unfold splitLoop
    refine ⟨by simp, by simp, ?_, by simp, _, _, rfl, rfl⟩
    intro q hq
    simp only [List.mem_singleton] at hq
    subst hq; exact hc
  | cons s2 rest ih =>
    intro cur s1 hc
    unfold splitLoop
    split
    · rename_i hcond
      have hcusp : ¬ Joined eps s1 s2 := by
        intro h
        rw [(joined_iff eps s1 s2).2 h] at hcond
        simp at hcond
      obtain ⟨h1, h2, h3, h4, q, l, h5, h6⟩ := ih [] s2 (by simp)
      refine ⟨?_, ?_, ?_, ?_, _, _, rfl, rfl⟩
      · rw [List.flatten_cons, h1]; simp
      · intro q hq
        rcases List.mem_cons.1 hq with rfl | hq
        · simp
        · exact h2 q hq
      · intro q hq
        rcases List.mem_cons.1 hq with rfl | hq
        · exact hc
        · exact h3 q hq
      · rw [h5] at h4 ⊢
        rw [List.isChain_cons_cons]
        refine ⟨?_, h4⟩
        intro a b ha hb
        simp only [List.getLast?_append, List.getLast?_singleton, Option.some_or, Option.some.injEq] at ha
        rw [h6] at hb
        simp only [List.nil_append, List.head?_cons, Option.some.injEq] at hb
        subst ha; subst hb
        exact hcusp
    · rename_i hcond
      have hj : Joined eps s1 s2 := (joined_iff eps s1 s2).1 (by simpa using hcond)
      have hc2 : ((cur ++ [s1]) ++ [s2]).IsChain (Joined eps) := by
        rw [List.isChain_append]
        refine ⟨hc, by simp, ?_⟩
        intro a ha b hb
        simp only [List.getLast?_append, List.getLast?_singleton, Option.some_or, Option.mem_def,
          Option.some.injEq, List.head?_cons] at ha hb
        subst ha; subst hb
        exact hj
      obtain ⟨h1, h2, h3, h4, q, l, h5, h6⟩ := ih (cur ++ [s1]) s2 hc2
      refine ⟨?_, h2, h3, h4, q, l, h5, ?_⟩
      · rw [h1]; simp
      · rw [h6]; cases cur <;> simp

/-- **C30**, with tangent continuity understood as numerical agreement of the tangent angles: `split_path_g1` cuts a
non-empty path into non-empty consecutive pieces; all junctions inside a piece are smooth and unmarked, all junctions
between pieces are not.  Missing: junctions that are smooth modulo a whole turn (`C30_refuted_wraparound`). -/
theorem C30_split_partial (eps : K) (p : Path K) (hp : p ≠ []) :
    ∃ r, splitPathG1 eps p = .ok r ∧ r.flatten = p ∧ (∀ q ∈ r, q ≠ []) ∧
      (∀ q ∈ r, q.IsChain (Joined eps)) ∧ r.IsChain (Cusp eps) := by
  cases p with
  | nil => exact absurd rfl hp
  | cons s rest =>
    obtain ⟨h1, h2, h3, h4, -⟩ := splitLoop_spec eps rest [] s (by simp)
    exact ⟨_, rfl, h1, h2, h3, h4⟩

end

/-- A straight stroke to the left followed by a quarter circle that continues in the same direction. -/
def leftThenArc : Path ℚ :=
  [⟨.line ⟨⟨10, 0⟩, ⟨0, 0⟩⟩, {}⟩, ⟨.arc ⟨⟨0, 0⟩, ⟨-1, -1⟩, 1, piRat / 2, ⟨0, -1⟩⟩, {}⟩]

/-- **C30** is refuted at the branch cut: a line to the left has tangent angle `π`, an arc that continues it has tangent
angle `-π`, so `split_path_g1` cuts a path that is perfectly tangent-continuous. -/
theorem C30_refuted_wraparound :
    (splitPathG1 (1/1000000) leftThenArc).map List.length = .ok 2 ∧
    SameDirection ((Shape.line ⟨⟨10, 0⟩, ⟨0, 0⟩⟩ : Shape ℚ).endTangent (1/1000000))
      ((Shape.arc ⟨⟨0, 0⟩, ⟨-1, -1⟩, 1, piRat / 2, ⟨0, -1⟩⟩ : Shape ℚ).startTangent (1/1000000)) := by
  refine ⟨by decide +kernel, 1, ?_⟩
  decide +kernel

/-- Non-vacuity: a path with one smooth and one sharp junction. -/
example : (splitPathG1 (1/1000000)
    [⟨.line ⟨⟨0, 0⟩, ⟨1, 0⟩⟩, {}⟩, ⟨.line ⟨⟨1, 0⟩, ⟨2, 0⟩⟩, {}⟩, ⟨.line ⟨⟨2, 0⟩, ⟨2, 5⟩⟩, {}⟩] : Except PyErr (List (Path ℚ)))
    = .ok [[⟨.line ⟨⟨0, 0⟩, ⟨1, 0⟩⟩, {}⟩, ⟨.line ⟨⟨1, 0⟩, ⟨2, 0⟩⟩, {}⟩], [⟨.line ⟨⟨2, 0⟩, ⟨2, 5⟩⟩, {}⟩]] := by decide +kernel

/-! ## C31 -/

section
variable {K : Type} [PyTrig K]

/-- Specification: the shape is a line or an arc. -/
def LineOrArc (s : Shape K) : Prop := (∃ l, s = .line l) ∨ ∃ a, s = .arc a

theorem bind_ok {α β : Type} {x : Except PyErr α} {f : α → Except PyErr β} {b : β} (h : (x >>= f) = .ok b) :
    ∃ a, x = .ok a ∧ f a = .ok b := by
  cases x with
  | error e => cases h
  | ok a => exact ⟨a, rfl, h⟩

theorem biarcCore_shapes (eps tol flat : K) (n : Nat) (b : Bez K) (l : List (Shape K))
    (h : Bez.biarcCore eps tol flat n b = .ok l) : ∀ s ∈ l, LineOrArc s := by
  induction n generalizing b l with
  | zero =>
    unfold Bez.biarcCore at h
    split at h
    · cases h; simp
    split at h
    · cases h; intro s hs; simp at hs; exact Or.inl ⟨_, hs⟩
    split at h
    · cases h; simp
    split at h
    · cases h; simp
    · obtain ⟨pj, -, h⟩ := bind_ok h
      obtain ⟨arcs, -, h⟩ := bind_ok h
      cases h
      intro s hs
      simp only [List.mem_cons, List.not_mem_nil, or_false] at hs
      rcases hs with rfl | rfl <;> exact Or.inr ⟨_, rfl⟩
  | succ n ih =>
    unfold Bez.biarcCore at h
    have halves : ∀ {l}, Bez.joinHalves (Bez.biarcCore eps tol flat n (b.subdivide (lit 5 1)).1)
        ((b.subdivide (lit 5 1)).2.elim (.error .attributeError) fun d => Bez.biarcCore eps tol flat n d) = .ok l →
        ∀ s ∈ l, LineOrArc s := by
      intro l h
      obtain ⟨l1, h1, h⟩ := bind_ok h
      obtain ⟨l2, h2, h⟩ := bind_ok h
      cases h
      intro s hs
      rcases List.mem_append.1 hs with hs | hs
      · exact ih _ _ h1 s hs
      · cases hd : (b.subdivide (lit 5 1)).2 with
        | none => rw [hd] at h2; cases h2
        | some d => rw [hd] at h2; exact ih _ _ h2 s hs
    split at h
    · cases h; simp
    · split at h
      · cases h; intro s hs; simp at hs; exact Or.inl ⟨_, hs⟩
      · split at h
        · cases h; simp
        · split at h
          · cases h; simp
          · obtain ⟨pj, -, h⟩ := bind_ok h
            dsimp only at h
            split at h
            · exact halves h
            · obtain ⟨arcs, -, h⟩ := bind_ok h
              obtain ⟨off, -, h⟩ := bind_ok h
              split at h
              · exact halves h
              · cases h
                intro s hs
                simp only [List.mem_cons, List.not_mem_nil, or_false] at hs
                rcases hs with rfl | rfl <;> exact Or.inr ⟨_, rfl⟩

theorem mapM_forall {α β : Type} (f : α → Except PyErr β) (P : β → Prop) (hf : ∀ a b, f a = .ok b → P b) (l : List α)
    (r : List β) (h : l.mapM f = .ok r) : ∀ b ∈ r, P b := by
  induction l generalizing r with
  | nil => cases h; simp
  | cons a l ih =>
    rw [List.mapM_cons] at h
    obtain ⟨b, hb, h⟩ := bind_ok h
    obtain ⟨bs, hbs, h⟩ := bind_ok h
    cases h
    intro x hx
    rcases List.mem_cons.1 hx with rfl | hx
    · exact hf _ _ hb
    · exact ih bs hbs x hx

theorem biarc_shapes (eps tol : K) (md : Nat) (flat : K) (b : Bez K) (l : List (Shape K))
    (h : b.biarcApproximation eps tol md flat = .ok l) : ∀ s ∈ l, LineOrArc s := by
  unfold Bez.biarcApproximation at h
  split at h
  · cases h; simp
  · split at h
    · cases h; intro s hs; simp at hs; exact Or.inl ⟨_, hs⟩
    · dsimp only at h
      split at h
      · obtain ⟨rs, hrs, h⟩ := bind_ok h
        cases h
        intro s hs
        obtain ⟨x, hx, hsx⟩ := List.mem_flatten.1 hs
        exact mapM_forall _ (fun x => ∀ s ∈ x, LineOrArc s) (fun a b hb => biarcCore_shapes _ _ _ _ _ _ hb) _ _ hrs x hx s hsx
      · exact biarcCore_shapes _ _ _ _ _ _ h

/-- **C31** (only lines and arcs): whatever `path_biarc_approximation` returns consists of lines and arcs. -/
theorem C31_only_lines_and_arcs (e : Env K) (o : Opts K) (p r : Path K) (h : biarcPath e o p = .ok r) :
    ∀ s ∈ r, LineOrArc s.shape := by
  induction p generalizing r with
  | nil => cases h; simp
  | cons s p ih =>
    unfold biarcPath at h
    obtain ⟨l, hl, h⟩ := bind_ok h
    obtain ⟨tl, htl, h⟩ := bind_ok h
    cases h
    intro x hx
    rcases List.mem_append.1 hx with hx | hx
    · unfold biarcSeg at hl
      split at hl
      · obtain ⟨shs, hs, hl⟩ := bind_ok hl
        cases hl
        obtain ⟨sh, hsh, rfl⟩ := List.mem_map.1 hx
        exact biarc_shapes _ _ _ _ _ _ hs sh hsh
      · rename_i l hsh; cases hl; simp at hx; subst hx; exact Or.inl ⟨_, hsh⟩
      · rename_i l hsh; cases hl; simp at hx; subst hx; exact Or.inr ⟨_, hsh⟩
      · cases hl
    · exact ih tl htl x hx

/-- **C31** (order): the result is the concatenation, in order, of one part per input segment: a line or arc itself,
unchanged, or the biarcs of a Bezier curve. -/
theorem C31_in_place (e : Env K) (o : Opts K) (p r : Path K) (h : biarcPath e o p = .ok r) :
    ∃ parts : List (Path K), r = parts.flatten ∧
      List.Forall₂ (fun (s : Seg K) (part : Path K) => (LineOrArc s.shape ∧ part = [s]) ∨
        ∃ b shs, s.shape = .bez b ∧ b.biarcApproximation e.eps o.biarcTol o.biarcMaxDepth o.lineFlatness = .ok shs ∧
          part.map Seg.shape = shs) p parts := by
  induction p generalizing r with
  | nil => cases h; exact ⟨[], rfl, .nil⟩
  | cons s p ih =>
    unfold biarcPath at h
    obtain ⟨l, hl, h⟩ := bind_ok h
    obtain ⟨tl, htl, h⟩ := bind_ok h
    cases h
    obtain ⟨parts, hr, hf⟩ := ih tl htl
    refine ⟨l :: parts, by rw [hr]; rfl, .cons ?_ hf⟩
    unfold biarcSeg at hl
    split at hl
    · rename_i b hb
      obtain ⟨shs, hs, hl⟩ := bind_ok hl
      cases hl
      refine Or.inr ⟨b, shs, hb, hs, ?_⟩
      rw [List.map_map]
      exact List.map_id' shs
    · rename_i x hx; cases hl; exact Or.inl ⟨Or.inl ⟨x, hx⟩, rfl⟩
    · rename_i x hx; cases hl; exact Or.inl ⟨Or.inr ⟨x, hx⟩, rfl⟩
    · cases hl

/-- **C31** (other segments): a path with a segment of any other class always raises. -/
theorem C31_other_raises (e : Env K) (o : Opts K) (p : Path K) (s : Seg K) (hs : s ∈ p) (a b : P K)
    (ho : s.shape = .other a b) : ∃ er, biarcPath e o p = .error er := by
  induction p with
  | nil => simp at hs
  | cons x p ih =>
    unfold biarcPath
    rcases List.mem_cons.1 hs with rfl | hs
    · have : biarcSeg e o s = .error .attributeError := by unfold biarcSeg; rw [ho]
      rw [this]; exact ⟨_, rfl⟩
    · cases hx : biarcSeg e o x with
      | error er => exact ⟨er, rfl⟩
      | ok l =>
        obtain ⟨er, her⟩ := ih hs
        rw [her]; exact ⟨er, rfl⟩

end

/-- Non-vacuity: a line followed by a straight Bezier becomes two lines; a foreign segment raises. -/
example : biarcPath envQ optQ [⟨.line ⟨⟨0, 0⟩, ⟨1, 0⟩⟩, {}⟩, ⟨.bez ⟨⟨1, 0⟩, ⟨2, 0⟩, ⟨3, 0⟩, ⟨4, 0⟩⟩, {}⟩]
      = .ok [⟨.line ⟨⟨0, 0⟩, ⟨1, 0⟩⟩, {}⟩, ⟨.line ⟨⟨1, 0⟩, ⟨4, 0⟩⟩, {}⟩] ∧
    biarcPath envQ optQ [⟨.other ⟨0, 0⟩ ⟨1, 0⟩, {}⟩] = .error .attributeError := by decide +kernel

end Verif.Cam
