import Verif.Cam.Toolpath
import Verif.GCode.Props1
import Verif.Geom.Props11

/-!
# C179: tool path lists; C180: position queries and the tool flip
-/

set_option linter.unusedSectionVars false
set_option linter.unusedVariables false

namespace Verif.Cam
open Verif PyFloat PyTrig Verif.Geom Verif.GCode

/-! ## C179 Specification -/

/-- Specification: `part` is what a tool path has for a segment: lines and arcs as they are, the biarcs of a curve. -/
def PartFor {K : Type} [PyFloat K] [PyTrig K] (eps tol : K) (depth : Nat) (flat : K) (s : Shape K) (part : List (Shape K)) : Prop :=
  ((∃ l, s = .line l) ∧ part = [s]) ∨ ((∃ a, s = .arc a) ∧ part = [s]) ∨ ∃ b, s = .bez b ∧ b.biarcApproximation eps tol depth flat = .ok part

/-- Specification: lines and arcs. -/
def IsLineOrArc {K : Type} (s : Shape K) : Prop := (∃ l, s = .line l) ∨ ∃ a, s = .arc a

/-- Specification: the path goes on within the tolerance where it stopped. -/
def GoesOn (eps : ℝ) (t : List (Shape ℝ)) : Prop := t.IsChain fun a b => sqDist a.p2 b.p1 < eps ^ 2

section Appends
variable {K : Type} [PyFloat K] [PyTrig K]

theorem toolSegs_part {eps tol : K} {depth : Nat} {flat : K} {s : Shape K} {l : List (Shape K)} (h : toolSegs eps tol depth flat s = .ok l) :
    PartFor eps tol depth flat s l := by
  cases s with
  | line a => cases h; exact .inl ⟨⟨a, rfl⟩, rfl⟩
  | arc a => cases h; exact .inr (.inl ⟨⟨a, rfl⟩, rfl⟩)
  | bez b => exact .inr (.inr ⟨b, rfl, h⟩)
  | other p q => cases h

/-- **C179.** `biarc_approximation` adds the parts of the path to the end of the list, in order: all of them if it succeeds, and those before the segment that raised
the error otherwise.  What was in the list stays. -/
theorem C179_appends (eps tol : K) (depth : Nat) (flat : K) (t path : List (Shape K)) :
    ∃ (done rest : List (Shape K)) (parts : List (List (Shape K))), path = done ++ rest ∧ List.Forall₂ (PartFor eps tol depth flat) done parts ∧
      (toolAppend eps tol depth flat t path).1 = t ++ parts.flatten ∧
      ((toolAppend eps tol depth flat t path).2 = none → rest = []) ∧
      ∀ e, (toolAppend eps tol depth flat t path).2 = some e → ∃ s r, rest = s :: r ∧ ((∃ p q, s = .other p q ∧ e = .attributeError) ∨
        ∃ b, s = .bez b ∧ b.biarcApproximation eps tol depth flat = .error e) := by
  induction path generalizing t with
  | nil => exact ⟨[], [], [], rfl, .nil, by simp [toolAppend], fun _ => rfl, fun e he => by simp [toolAppend] at he⟩
  | cons s path ih =>
    cases hs : toolSegs eps tol depth flat s with
    | error e =>
      have h0 : toolAppend eps tol depth flat t (s :: path) = (t, some e) := by simp [toolAppend, hs]
      rw [h0]
      refine ⟨[], s :: path, [], rfl, .nil, by simp, fun h => (by cases h), fun e' he' => ⟨s, path, rfl, ?_⟩⟩
      have : e = e' := by simpa using he'
      subst this
      cases s with
      | line a => cases hs
      | arc a => cases hs
      | bez b => exact .inr ⟨b, rfl, hs⟩
      | other p q => cases hs; exact .inl ⟨p, q, rfl, rfl⟩
    | ok l =>
      have h0 : toolAppend eps tol depth flat t (s :: path) = toolAppend eps tol depth flat (t ++ l) path := by simp [toolAppend, hs]
      rw [h0]
      obtain ⟨done, rest, parts, h1, h2, h3, h4, h5⟩ := ih (t ++ l)
      exact ⟨s :: done, rest, l :: parts, by rw [h1]; rfl, .cons (toolSegs_part hs) h2, by simp only [h3]; simp, h4, h5⟩

end Appends

theorem out_lineOrArc {eps tol flat d : ℝ} {b : Bez ℝ} {p : Piece} (h : GoodPiece eps tol flat d b p) : ∀ s ∈ p.out, IsLineOrArc s := by
  rcases h with ⟨h, -⟩ | ⟨h, -⟩ | ⟨a1, a2, h, -⟩ <;> rw [h]
  · simp
  · intro s hs; rw [List.mem_singleton] at hs; exact .inl ⟨_, hs⟩
  · intro s hs; rcases List.mem_cons.1 hs with hs | hs
    · exact .inr ⟨_, hs⟩
    · rw [List.mem_singleton] at hs; exact .inr ⟨_, hs⟩

/-- **C179.** A tool path that has only lines and arcs still has only lines and arcs after any path was added to it, even if that raised an error. -/
theorem C179_lines_and_arcs (eps tol flat : ℝ) (heps : 0 < eps) (he : eps ≤ 1 / 14) (depth : Nat) (t path : List (Shape ℝ)) (ht : ∀ s ∈ t, IsLineOrArc s) :
    ∀ s ∈ (toolAppend eps tol depth flat t path).1, IsLineOrArc s := by
  obtain ⟨done, rest, parts, -, h2, h3, -⟩ := C179_appends eps tol depth flat t path
  rw [h3]
  intro s hs
  rcases List.mem_append.1 hs with h' | h'
  · exact ht s h'
  clear hs h3
  obtain ⟨part, hp, hs⟩ := List.mem_flatten.1 h'
  clear h'
  induction h2 with
  | nil => simp at hp
  | cons hd tl ih =>
    rcases List.mem_cons.1 hp with rfl | hp
    · rcases hd with ⟨⟨l, hl⟩, hd⟩ | ⟨⟨a, hl⟩, hd⟩ | ⟨b, -, hd⟩
      · rw [hd, List.mem_singleton] at hs; rw [hs]; exact .inl ⟨l, hl⟩
      · rw [hd, List.mem_singleton] at hs; rw [hs]; exact .inr ⟨a, hl⟩
      · obtain ⟨ps, -, hps, hg⟩ := C95_biarc_partial eps tol flat heps he depth b part hd
        rw [hps, List.mem_flatMap] at hs
        obtain ⟨p, hp, hs⟩ := hs
        exact out_lineOrArc (hg p hp) s hs
    · exact ih hp

theorem toolJoined_iff (eps : ℝ) (s : Shape ℝ) (t : List (Shape ℝ)) : toolJoined eps s t = true ↔ GoesOn eps (s :: t) := by
  induction t generalizing s with
  | nil => simp [toolJoined, GoesOn]
  | cons a t ih =>
    unfold toolJoined GoesOn
    rw [List.isChain_cons_cons, ← eq_iff]
    by_cases h : s.p2.eq eps a.p1 = true
    · rw [if_pos h]; exact (ih a).trans ⟨fun h' => ⟨h, h'⟩, fun h' => h'.2⟩
    · rw [if_neg h]; simp [h]

/-- **C179.** `verify_continuity` says whether the path goes on where it stopped, at every segment; for an empty path it raises `IndexError`. -/
theorem C179_continuity (eps : ℝ) (t : List (Shape ℝ)) :
    (t = [] → toolContinuous eps t = .error .indexError) ∧ (t ≠ [] → ∃ b, toolContinuous eps t = .ok b ∧ (b = true ↔ GoesOn eps t)) := by
  cases t with
  | nil => exact ⟨fun _ => rfl, fun h => absurd rfl h⟩
  | cons s t => exact ⟨fun h => (by cases h), fun _ => ⟨_, rfl, toolJoined_iff eps s t⟩⟩

/-- **C179.** `is_closed`: more than two segments, and the last one ends where the first one starts. -/
theorem C179_closed_partial (eps : ℝ) (a b : Shape ℝ) (t : List (Shape ℝ)) :
    toolClosed eps (a :: (t ++ [b])) = true ↔ t ≠ [] ∧ sqDist a.p1 b.p2 < eps ^ 2 := by
  have h2 : (a :: (t ++ [b])).getLast? = some b := by rw [← List.cons_append, List.getLast?_append]; rfl
  unfold toolClosed
  rw [h2]
  simp only [List.head?_cons, Bool.and_eq_true, decide_eq_true_eq, eq_iff, List.length_cons, List.length_append, List.length_nil]
  cases t <;> simp

/-- **C179** is false for closed paths of two segments: a circle of two half circles, which goes on where it stopped and ends where it starts, is not closed. -/
theorem C179_refuted_circle (eps : ℝ) (heps : 0 < eps) :
    ∃ a b : Arc ℝ, GoesOn eps [.arc a, .arc b] ∧ sqDist a.p1 b.p2 < eps ^ 2 ∧ toolClosed eps [.arc a, .arc b] = false := by
  refine ⟨⟨⟨1, 0⟩, ⟨-1, 0⟩, 1, Real.pi, ⟨0, 0⟩⟩, ⟨⟨-1, 0⟩, ⟨1, 0⟩, 1, Real.pi, ⟨0, 0⟩⟩, ?_, ?_, ?_⟩
  · simp [GoesOn, Shape.p1, Shape.p2, sqDist, heps.ne', pow_pos heps]
  · simp [sqDist, pow_pos heps]
  · simp [toolClosed]

/-- **C179** is false for the exception: a path with any other kind of segment raises `AttributeError`, not the documented `ToolpathException`. -/
theorem C179_refuted_exception (eps tol flat : ℝ) (depth : Nat) (t pre post : List (Shape ℝ)) (hpre : ∀ s ∈ pre, IsLineOrArc s) (p q : P ℝ) :
    toolAppend eps tol depth flat t (pre ++ .other p q :: post) = (t ++ pre, some .attributeError) := by
  induction pre generalizing t with
  | nil => simp [toolAppend, toolSegs]
  | cons s pre ih =>
    have ih' := fun t => ih t fun s hs => hpre s (List.mem_cons_of_mem _ hs)
    rcases hpre s (List.mem_cons_self ..) with ⟨l, rfl⟩ | ⟨l, rfl⟩ <;> simp [toolAppend, toolSegs, ih']

/-- Non-vacuity: a line, a flat curve (which becomes its chord) and an arc are added after a line; the path is continuous and closed. -/
example : (toolAppend (1/1000 : ℚ) (1/100) 3 (1/10) [.line ⟨⟨0, 0⟩, ⟨1, 0⟩⟩]
      [.line ⟨⟨1, 0⟩, ⟨1, 1⟩⟩, .bez ⟨⟨1, 1⟩, ⟨2/3, 1⟩, ⟨1/3, 1⟩, ⟨0, 1⟩⟩, .line ⟨⟨0, 1⟩, ⟨0, 0⟩⟩]).1.map (fun s => (s.p1.x, s.p1.y, s.p2.x, s.p2.y)) =
    [(0, 0, 1, 0), (1, 0, 1, 1), (1, 1, 0, 1), (0, 1, 0, 0)] := by decide +kernel

example : (toolContinuous (1/1000 : ℚ) [.line ⟨⟨0, 0⟩, ⟨1, 0⟩⟩, .line ⟨⟨1, 0⟩, ⟨1, 1⟩⟩, .line ⟨⟨1, 1⟩, ⟨0, 0⟩⟩]).toOption = some true ∧
    toolClosed (1/1000 : ℚ) [.line ⟨⟨0, 0⟩, ⟨1, 0⟩⟩, .line ⟨⟨1, 0⟩, ⟨1, 1⟩⟩, .line ⟨⟨1, 1⟩, ⟨0, 0⟩⟩] = true ∧
    (toolContinuous (1/1000 : ℚ) [.line ⟨⟨0, 0⟩, ⟨1, 0⟩⟩, .line ⟨⟨1, 1⟩, ⟨1, 2⟩⟩]).toOption = some false := by decide +kernel

/-! ## C180 -/

section Queries
variable {K : Type} [PyFloat K] [PyTrig K]

/-- **C180.** After any history of calls that keep track of the position (as for C01), every query of the position agrees with the machine that executes the
program: unknown axes are `None`, the others are the coordinates in user units. -/
theorem C180_queries (g0 : Gen K) (h0 : Fresh g0) (calls : List (Call K)) (hc : ∀ c ∈ calls, Trackable c) :
    let g := g0.run calls
    let at' := fun (axis : Char) (v : Option K) => g.machine.pos axis = v.map (specImage g.cfg axis)
    at' 'X' (genX g) ∧ at' 'Y' (genY g) ∧ at' 'Z' (genZ g) ∧ at' 'A' (genA g) ∧
      at' 'X' (currentXY g).1 ∧ at' 'Y' (currentXY g).2 ∧
      at' 'X' (currentXYZA g).1 ∧ at' 'Y' (currentXYZA g).2.1 ∧ at' 'Z' (currentXYZA g).2.2.1 ∧ at' 'A' (currentXYZA g).2.2.2 := by
  have key : ∀ axis ∈ ['X', 'Y', 'Z', 'A'], (g0.run calls).machine.pos axis = ((g0.run calls).last axis).map (specImage (g0.run calls).cfg axis) := by
    intro axis hax
    refine C01_position_tracking_partial g0 h0 calls hc axis hax _ ?_
    have hu : upperS [axis] = [axis] ∧ axis ∈ orderedParams := by
      simp only [List.mem_cons, List.not_mem_nil, or_false] at hax
      rcases hax with rfl | rfl | rfl | rfl <;> decide
    simp only [Gen.position, hu.1, hu.2, if_true]
  have hX := key 'X' (by simp)
  have hY := key 'Y' (by simp)
  have hZ := key 'Z' (by simp)
  have hA := key 'A' (by simp)
  exact ⟨hX, hY, hZ, hA, hX, hY, hX, hY, hZ, hA⟩

/-- **C180.** The queries and `position` always agree. -/
theorem C180_position (g : Gen K) : g.position "X".toList = .ok (currentXYZA g).1 ∧ g.position "y".toList = .ok (currentXYZA g).2.1 ∧
    g.position "Z".toList = .ok (currentXYZA g).2.2.1 ∧ g.position "a".toList = .ok (currentXYZA g).2.2.2 ∧
    currentXY g = ((currentXYZA g).1, (currentXYZA g).2.1) :=
  ⟨rfl, rfl, rfl, rfl, rfl⟩

/-- **C180** is false for the tool flip: `flip_tool` always raises `AttributeError`, and however often it is called, the program that is generated is the one without the flips. -/
theorem C180_refuted_flip (f : Flipper K) (hist : List (Option (Call K))) :
    f.flip.2 = some .attributeError ∧ (f.run hist).gc = f.gc.run (hist.filterMap id) := by
  refine ⟨rfl, ?_⟩
  induction hist generalizing f with
  | nil => rfl
  | cons c l ih =>
    cases c with
    | none => exact ih _
    | some c => exact ih _

end Queries

end Verif.Cam
