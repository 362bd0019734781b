import Verif.Ext.Polysmooth
import Verif.Geom.Props18

/-!
# C136, C137: simplifying before smoothing, and where the smoothed paths go
-/

set_option linter.unusedSectionVars false

namespace Verif.Ext
open Verif PyFloat PyTrig Geom

/-- Specification: each line starts exactly where the one before it ends. -/
def Polyline (ls : List (Line ℝ)) : Prop := ls.IsChain fun l m => l.p2 = m.p1

/-- Specification: every point of the line is within `tol` of the other line. -/
def CloseTo (tol : ℝ) (l m : Line ℝ) : Prop := ∀ t, 0 ≤ t → t ≤ 1 → NearSegment tol m.p1 m.p2 (segPt l t)

theorem linesThrough_chain : ∀ (p : P ℝ) (ps : List (P ℝ)), Polyline (linesThrough p ps)
  | _, [] => List.isChain_nil
  | _, [_] => List.isChain_singleton _
  | p, q :: r :: ps => List.isChain_cons_cons.2 ⟨rfl, linesThrough_chain q (r :: ps)⟩

theorem linesThrough_starts : ∀ (p : P ℝ) (ps : List (P ℝ)), (linesThrough p ps).map Line.p1 = (p :: ps).dropLast
  | _, [] => rfl
  | p, q :: ps => by
    rw [linesThrough, List.map_cons, linesThrough_starts q ps]; rfl

theorem linesThrough_last : ∀ (p : P ℝ) (ps : List (P ℝ)) (m : Line ℝ), (linesThrough p ps).getLast? = some m → (p :: ps).getLast? = some m.p2
  | _, [], _, h => by simp [linesThrough] at h
  | p, [q], m, h => by simp [linesThrough] at h; simp [← h]
  | p, q :: r :: ps, m, h => by
    have e : (linesThrough p (q :: r :: ps)).getLast? = (linesThrough q (r :: ps)).getLast? := by
      rw [linesThrough, linesThrough, List.getLast?_cons_cons]
    rw [e] at h
    rw [List.getLast?_cons_cons]
    exact linesThrough_last q (r :: ps) m h

theorem linesThrough_mem : ∀ (p : P ℝ) (ps : List (P ℝ)) (a b : P ℝ), Consecutive a b (p :: ps) → (⟨a, b⟩ : Line ℝ) ∈ linesThrough p ps
  | _, [], a, b, h => by obtain ⟨pre, post, e⟩ := h; have := congrArg List.length e; simp at this; omega
  | p, q :: ps, a, b, h => by
    rcases Consecutive.cons_iff.1 h with ⟨e1, e2⟩ | h
    · simp at e2; subst e1; subst e2; simp [linesThrough]
    · exact List.mem_cons_of_mem _ (linesThrough_mem q ps a b h)

/-- The lines of a polyline lie between neighbours in the list of its vertices. -/
theorem polyline_consecutive : ∀ (l : Line ℝ) (ls : List (Line ℝ)), Polyline (l :: ls) → ∀ m ∈ l :: ls, Consecutive m.p1 m.p2 (lineVertices l ls)
  | l, [], _, m, hm => by simp at hm; subst hm; exact ⟨[], [], by simp [lineVertices]⟩
  | l, k :: ls, h, m, hm => by
    obtain ⟨h1, h2⟩ := List.isChain_cons_cons.1 h
    have e : lineVertices l (k :: ls) = l.p1 :: lineVertices k ls := by
      simp [lineVertices, List.getLast?_cons]
    rw [e]
    rcases List.mem_cons.1 hm with rfl | hm
    · refine Consecutive.cons_iff.2 (.inl ⟨rfl, ?_⟩)
      rw [h1]; simp [lineVertices]
    · exact Consecutive.cons_iff.2 (.inr (polyline_consecutive k ls h2 m hm))

theorem loop_lines (eps tol : ℝ) (depth : Nat) : ∀ (ls acc : List (Line ℝ)),
    simplifyLoop eps tol depth acc (ls.map Shape.line) = flush eps tol depth (acc ++ ls)
  | [], acc => by simp [simplifyLoop]
  | l :: ls, acc => by
    rw [List.map_cons, simplifyLoop, loop_lines eps tol depth ls]; simp

theorem sublist_dropLast {α : Type} {a b : List α} (h : a.Sublist b) : a.dropLast.Sublist b.dropLast := by
  have := (h.reverse.tail).reverse
  rwa [List.tail_reverse, List.tail_reverse, List.reverse_reverse, List.reverse_reverse] at this

theorem loop_other (eps tol : ℝ) (depth : Nat) (s : Shape ℝ) (hs : ∀ x, s ≠ Shape.line x) (acc : List (Line ℝ)) (path : List (Shape ℝ)) :
    simplifyLoop eps tol depth acc (s :: path) =
      if 1 < acc.length then (flush eps tol depth acc).bind fun a => (simplifyLoop eps tol depth [] path).bind fun r => some (a ++ r)
      else (simplifyLoop eps tol depth acc path).bind fun r => some (s :: r) := by
  cases s with
  | line x => exact absurd rfl (hs x)
  | arc a => rfl
  | bez a => rfl
  | other p q => rfl

/-- Simplifying one polyline, with the specification. -/
theorem simplifyPolyline_spec (eps tol : ℝ) (htol : 0 ≤ tol) (l : Line ℝ) (ls : List (Line ℝ)) (last : Line ℝ) (hlast : (l :: ls).getLast? = some last)
    (hc : Polyline (l :: ls)) (depth : Nat) (hd : ls.length + 3 ≤ depth) :
    ∃ m ms e, simplifyPolyline eps tol depth l ls = some (m :: ms) ∧ Polyline (m :: ms) ∧ m.p1 = l.p1 ∧
      (m :: ms).getLast? = some e ∧ e.p2 = last.p2 ∧ ((m :: ms).map Line.p1).Sublist ((l :: ls).map Line.p1) ∧
      ∀ k ∈ l :: ls, ∃ n ∈ m :: ms, CloseTo tol k n := by
  have hl0 : (l :: ls).getLastD l = last := by
    rw [List.getLastD_eq_getLast?, hlast]; rfl
  have hlen : (lineVertices l ls).length = ls.length + 2 := by simp [lineVertices]
  obtain ⟨rs, h1, h2, h3, h4, -⟩ := C54_rdp eps tol htol (lineVertices l ls)
  obtain ⟨rs', h1', h5⟩ := C54_rdp_points eps tol htol (lineVertices l ls)
  have hrs : rs' = rs := by
    have a := h1 _ le_rfl
    rw [h1' _ le_rfl] at a
    exact Option.some.inj a
  subst hrs
  have hV : (lineVertices l ls).getLast? = some last.p2 := by rw [lineVertices, hl0, List.getLast?_append]; simp
  have hV0 : (lineVertices l ls).head? = some l.p1 := by simp [lineVertices]
  rw [hV0] at h3
  rw [hV] at h4
  cases rs' with
  | nil => simp at h3
  | cons p ps =>
    simp at h3
    subst h3
    have hc0 := h5 _ _ (polyline_consecutive l ls hc l (by simp))
    cases ps with
    | nil =>
      obtain ⟨a, b, ⟨pre, post, e⟩, -⟩ := hc0
      have := congrArg List.length e; simp at this; omega
    | cons q ps =>
      have hlast' : ∃ e, (linesThrough l.p1 (q :: ps)).getLast? = some e := by
        cases h : (linesThrough l.p1 (q :: ps)).getLast? with
        | none => rw [List.getLast?_eq_none_iff] at h; simp [linesThrough] at h
        | some e => exact ⟨e, rfl⟩
      obtain ⟨e, he⟩ := hlast'
      refine ⟨⟨l.p1, q⟩, linesThrough q ps, e, ?_, linesThrough_chain l.p1 (q :: ps), rfl, he, ?_, ?_, ?_⟩
      · unfold simplifyPolyline
        rw [h1 depth (by omega)]
        rfl
      · have := linesThrough_last _ _ _ he
        rw [h4] at this
        exact (Option.some.inj this).symm
      · have := linesThrough_starts l.p1 (q :: ps)
        rw [linesThrough] at this
        rw [this]
        have := sublist_dropLast h2
        have e2 : (lineVertices l ls).dropLast = (l :: ls).map Line.p1 := by unfold lineVertices; exact List.dropLast_concat
        rwa [e2] at this
      · intro k hk
        obtain ⟨a, b, hab, hn⟩ := h5 _ _ (polyline_consecutive l ls hc k hk)
        exact ⟨⟨a, b⟩, linesThrough_mem l.p1 (q :: ps) a b hab, hn⟩

/-- **C136**, the part that holds: a connected path of lines, or of curves followed by such lines, is simplified into the same curves followed by a connected path
of lines that begins and ends at the same points, whose vertices are some of those of the path in the same order, and no point of the path is
further than the tolerance from it. -/
theorem C136_simplify_partial (eps tol : ℝ) (htol : 0 ≤ tol) (curves : List (Shape ℝ)) (hcur : ∀ s ∈ curves, ∀ x, s ≠ Shape.line x) (l : Line ℝ) (ls : List (Line ℝ)) (last : Line ℝ) (hlast : (l :: ls).getLast? = some last)
    (hc : Polyline (l :: ls)) (depth : Nat) (hd : ls.length + 3 ≤ depth) :
    ∃ m ms e, simplifyPolylines eps tol depth (curves ++ (l :: ls).map Shape.line) = some (curves ++ (m :: ms).map Shape.line) ∧ Polyline (m :: ms) ∧ m.p1 = l.p1 ∧
      (m :: ms).getLast? = some e ∧ e.p2 = last.p2 ∧ ((m :: ms).map Line.p1).Sublist ((l :: ls).map Line.p1) ∧
      ∀ k ∈ l :: ls, ∃ n ∈ m :: ms, CloseTo tol k n := by
  obtain ⟨m, ms, e, h1, h2⟩ := simplifyPolyline_spec eps tol htol l ls last hlast hc depth hd
  refine ⟨m, ms, e, ?_, h2⟩
  unfold simplifyPolylines
  induction curves with
  | nil =>
    rw [List.nil_append, loop_lines]
    simp [flush, h1]
  | cons s curves ih =>
    have hs := hcur s (by simp)
    have := ih (fun s hs => hcur s (by simp [hs]))
    rw [List.cons_append, loop_other eps tol depth s hs, if_neg (by simp), this]; rfl

/-- **C136**, curves only: without lines nothing is changed. -/
theorem C136_curves_partial (eps tol : ℝ) (curves : List (Shape ℝ)) (hcur : ∀ s ∈ curves, ∀ x, s ≠ Shape.line x) (depth : Nat) :
    simplifyPolylines eps tol depth curves = some curves := by
  unfold simplifyPolylines
  induction curves with
  | nil => rfl
  | cons s curves ih =>
    have hs := hcur s (by simp)
    have := ih (fun s hs => hcur s (by simp [hs]))
    rw [loop_other eps tol depth s hs, if_neg (by simp), this]; rfl

/-- The parts of **C136** that fail, for every curve: after two or more lines the curve is lost, and after a single line it is put before the line. -/
theorem C136_refuted (eps tol : ℝ) (htol : 0 ≤ tol) (s : Shape ℝ) (hs : ∀ x, s ≠ Shape.line x) :
    (∀ (l k : Line ℝ) (ls : List (Line ℝ)) (depth : Nat), ls.length + 4 ≤ depth →
      simplifyPolylines eps tol depth (((l :: k :: ls).map Shape.line) ++ [s]) = simplifyPolylines eps tol depth ((l :: k :: ls).map Shape.line) ∧
      ∃ r : List (Line ℝ), simplifyPolylines eps tol depth (((l :: k :: ls).map Shape.line) ++ [s]) = some (r.map Shape.line)) ∧
    (∀ (l : Line ℝ) (depth : Nat), 1 ≤ depth → simplifyPolylines eps tol depth [Shape.line l, s] = some [s, Shape.line l]) := by
  have loop : ∀ (ls acc : List (Line ℝ)) (depth : Nat) (path : List (Shape ℝ)),
      simplifyLoop eps tol depth acc (ls.map Shape.line ++ path) = simplifyLoop eps tol depth (acc ++ ls) path := by
    intro ls
    induction ls with
    | nil => simp
    | cons l ls ih => intro acc depth path; rw [List.map_cons, List.cons_append, simplifyLoop, ih]; simp
  constructor
  · intro l k ls depth hd
    have key : simplifyPolylines eps tol depth (((l :: k :: ls).map Shape.line) ++ [s]) = flush eps tol depth (l :: k :: ls) := by
      unfold simplifyPolylines
      rw [loop, List.nil_append]
      rw [loop_other eps tol depth s hs, if_pos (by simp)]
      cases h : flush eps tol depth (l :: k :: ls) <;> simp [simplifyLoop, flush]
    refine ⟨?_, ?_⟩
    · rw [key]
      unfold simplifyPolylines
      rw [loop_lines]; rfl
    · rw [key]
      obtain ⟨rs, h1, -, h3, -⟩ := C54_rdp eps tol htol (lineVertices l (k :: ls))
      have hlen : (lineVertices l (k :: ls)).length = ls.length + 3 := by simp [lineVertices]
      cases rs with
      | nil => simp [lineVertices] at h3
      | cons p ps =>
        refine ⟨linesThrough p ps, ?_⟩
        rw [flush]
        unfold simplifyPolyline
        rw [h1 depth (by omega)]
        rfl
  · intro l depth hd
    obtain ⟨d, rfl⟩ : ∃ d, depth = d + 1 := ⟨depth - 1, by omega⟩
    have hf : flush eps tol (d + 1) [l] = some [Shape.line l] := by
      rw [flush]
      unfold simplifyPolyline
      rw [rdp, if_pos (by simp [lineVertices])]
      simp [lineVertices, linesThrough]
    unfold simplifyPolylines
    rw [simplifyLoop, loop_other eps tol _ s hs, if_neg (by simp), simplifyLoop, List.nil_append, hf]; rfl

/-- Three lines with a small bump make one path; a curve before them meets the hypotheses as well. -/
example : Polyline [⟨⟨0, 0⟩, ⟨1, 1/10⟩⟩, ⟨⟨1, 1/10⟩, ⟨2, 0⟩⟩, ⟨⟨2, 0⟩, ⟨2, 5⟩⟩] ∧ (∀ s ∈ [Shape.arc (⟨⟨-1, -1⟩, ⟨0, 0⟩, 1, 1, ⟨-1, 0⟩⟩ : Arc ℝ)], ∀ x, s ≠ Shape.line x) := by
  constructor
  · simp [Polyline]
  · simp

/-! ## C137 -/

/-- Specification: the smoothed paths that are not empty. -/
def nonempty {α : Type} (ps : List (List α)) : List (List α) := ps.filter fun p => !p.isEmpty

/-- **C137**, output to a new layer: every smoothed path that is not empty is put into the layer, once and in order. -/
theorem C137_new_layer {α : Type} (attached : Bool) (ps : List (List α)) :
    placed true attached ps = (nonempty ps).map fun p => (p, Place.newLayer) := by
  induction ps with
  | nil => rfl
  | cons p ps ih => cases p <;> simp [placed, nonempty, ih] <;> rfl

theorem placed_rest {α : Type} (ps : List (List α)) : placed false false ps = (nonempty ps).map fun p => (p, Place.default) := by
  induction ps with
  | nil => rfl
  | cons p ps ih => cases p <;> simp [placed, nonempty, ih] <;> rfl

/-- **C137**, replacing an element: every smoothed path that is not empty is written, once and in order; the first one is put where the element was. -/
theorem C137_replace_partial {α : Type} (ps : List (List α)) :
    (placed false true ps).map Prod.fst = nonempty ps ∧ ((placed false true ps).map Prod.snd).head? = (nonempty ps).head?.map fun _ => Place.parent := by
  induction ps with
  | nil => exact ⟨rfl, rfl⟩
  | cons p ps ih =>
    cases p with
    | nil => simpa [placed, nonempty] using ih
    | cons a p =>
      constructor
      · simp only [placed, Bool.false_eq_true, if_false, if_true, List.map_cons, placed_rest, List.map_map]
        simp [nonempty, Function.comp_def]
      · simp [placed, nonempty]

/-- The part of **C137** that fails: of an element with several paths only the first one stays where the element was; all the others are put
elsewhere, into the root of the document. -/
theorem C137_refuted {α : Type} (p : List α) (ps : List (List α)) (hp : p ≠ []) :
    placed false true (p :: ps) = (p, Place.parent) :: (nonempty ps).map fun q => (q, Place.default) := by
  cases p with
  | nil => exact absurd rfl hp
  | cons a p => simp [placed, placed_rest]

/-- Two paths: the second one leaves the element around. -/
example : placed false true [[1, 2], [], [3]] = [([1, 2], Place.parent), ([3], Place.default)] := rfl

end Verif.Ext
