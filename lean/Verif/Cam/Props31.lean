import Verif.Cam.Subpath
import Verif.Cam.Props26
import Verif.Geom.Props18
import Verif.Geom.Props15

/-!
# C183: the simplified and smoothed sub-paths
-/

set_option linter.unusedSectionVars false
set_option linter.unusedVariables false

namespace Verif.Cam
open Verif PyFloat PyTrig Geom

/-- Specification: a point is within `d` of one of the lines. -/
def NearLines (d : ℝ) (ls : List (Line ℝ)) (p : P ℝ) : Prop := ∃ l ∈ ls, NearSegment d l.p1 l.p2 p

/-! ## Lines through points -/

theorem linesThrough_unbroken : ∀ ps : List (P ℝ), Unbroken (linesThrough ps)
  | [] => List.isChain_nil
  | [_] => List.isChain_nil
  | [_, _] => List.isChain_singleton _
  | p :: q :: r :: rs => by
    have ih := linesThrough_unbroken (q :: r :: rs)
    show List.IsChain _ (⟨p, q⟩ :: ⟨q, r⟩ :: linesThrough (r :: rs))
    exact List.isChain_cons_cons.2 ⟨rfl, ih⟩

theorem linesThrough_head (p q : P ℝ) (qs : List (P ℝ)) : (linesThrough (p :: q :: qs)).head?.map Line.p1 = some p := rfl

theorem linesThrough_last : ∀ (p q : P ℝ) (qs : List (P ℝ)), (linesThrough (p :: q :: qs)).getLast?.map Line.p2 = (p :: q :: qs).getLast?
  | p, q, [] => rfl
  | p, q, r :: rs => by
    have ih := linesThrough_last q r rs
    have e : linesThrough (p :: q :: r :: rs) = ⟨p, q⟩ :: ⟨q, r⟩ :: linesThrough (r :: rs) := rfl
    rw [e, List.getLast?_cons_cons]
    exact ih

theorem linesThrough_mem : ∀ (ps : List (P ℝ)) (l : Line ℝ), l ∈ linesThrough ps ↔ Consecutive l.p1 l.p2 ps
  | [], l => by
    refine ⟨fun h => (by cases h), fun ⟨a, b, h⟩ => ?_⟩
    simp at h
  | [p], l => by
    refine ⟨fun h => (by cases h), fun ⟨a, b, h⟩ => ?_⟩
    have := congrArg List.length h
    simp at this
    omega
  | p :: q :: qs, l => by
    have ih := linesThrough_mem (q :: qs) l
    have e : linesThrough (p :: q :: qs) = ⟨p, q⟩ :: linesThrough (q :: qs) := rfl
    rw [e, List.mem_cons, ih]
    constructor
    · rintro (rfl | ⟨a, b, h⟩)
      · exact ⟨[], qs, rfl⟩
      · exact ⟨p :: a, b, by rw [h]; rfl⟩
    · rintro ⟨a, b, h⟩
      cases a with
      | nil =>
        simp only [List.nil_append, List.cons.injEq] at h
        obtain ⟨h1, h2, -⟩ := h
        left
        cases l
        simp_all
      | cons x a =>
        simp only [List.cons_append, List.cons.injEq] at h
        exact .inr ⟨a, b, h.2⟩

theorem consecutive_mem {a b : P ℝ} {ps : List (P ℝ)} (h : Consecutive a b ps) : a ∈ ps ∧ b ∈ ps := by
  obtain ⟨x, y, rfl⟩ := h
  simp

/-- The points of a connected path. -/
theorem unbroken_points : ∀ (path : List (Line ℝ)) (last : Line ℝ), path.getLast? = some last → Unbroken path →
    linesThrough (path.map Line.p1 ++ [last.p2]) = path
  | [], last, h, _ => by cases h
  | [l], last, h, _ => by
    simp only [List.getLast?_singleton, Option.some.injEq] at h
    subst h
    rfl
  | l :: m :: ls, last, h, hu => by
    rw [List.getLast?_cons_cons] at h
    obtain ⟨h1, h2⟩ := List.isChain_cons_cons.1 hu
    have ih := unbroken_points (m :: ls) last h h2
    have e : linesThrough ((l :: m :: ls).map Line.p1 ++ [last.p2]) = ⟨l.p1, m.p1⟩ :: linesThrough ((m :: ls).map Line.p1 ++ [last.p2]) := rfl
    rw [e, ih, ← h1]

/-! ## The claim -/

/-- **C183**, simplifying: a path that is not empty is replaced by a connected path from its start to its end; its vertices are vertices of the path, in
order; and if the path was connected, every point of it is within the tolerance of the simplified path. -/
theorem C183_simplified (eps tol : ℝ) (htol : 0 ≤ tol) (path : List (Line ℝ)) (a b : P ℝ) (ha : path.head?.map Line.p1 = some a)
    (hb : path.getLast?.map Line.p2 = some b) :
    ∃ r, (∀ depth, path.length + 2 ≤ depth → simplifyLines eps tol depth path = some (.ok r)) ∧ Leads a b r ∧
      (r.map Line.p1 ++ [b]).Sublist (path.map Line.p1 ++ [b]) ∧
      (Unbroken path → ∀ l ∈ path, ∀ t, 0 ≤ t → t ≤ 1 → NearLines tol r (segPt l t)) := by
  cases hl : path.getLast? with
  | none => rw [hl] at hb; cases hb
  | some last =>
    rw [hl] at hb
    simp only [Option.map_some, Option.some.injEq] at hb
    subst hb
    set ps := path.map Line.p1 ++ [last.p2] with hps
    obtain ⟨rs, h1, h2, h3, h4, -⟩ := C54_rdp eps tol htol ps
    obtain ⟨rs', h1', h5⟩ := C54_rdp_points eps tol htol ps
    have : rs' = rs := by
      have e1 := h1 _ le_rfl
      have e2 := h1' _ le_rfl
      rw [e1] at e2
      exact (Option.some.inj e2).symm
    subst this
    have hlen : ps.length = path.length + 1 := by simp [hps]
    -- the path has a line, so the result has one
    cases path with
    | nil => cases hl
    | cons l0 ls =>
      simp only [List.head?_cons, Option.map_some, Option.some.injEq] at ha
      subst ha
      have hcons : ∃ x y, Consecutive x y ps := by
        cases ls with
        | nil => exact ⟨l0.p1, last.p2, [], [], rfl⟩
        | cons l1 ls => exact ⟨l0.p1, l1.p1, [], ls.map Line.p1 ++ [last.p2], rfl⟩
      obtain ⟨x, y, hxy⟩ := hcons
      obtain ⟨c, d, hcd, -⟩ := h5 x y hxy
      have hh : rs'.head? = some l0.p1 := by rw [h3]; rfl
      have hla : rs'.getLast? = some last.p2 := by rw [h4, hps, List.getLast?_append]; rfl
      obtain ⟨p, q, qs, rfl⟩ : ∃ p q qs, rs' = p :: q :: qs := by
        obtain ⟨u, v, e⟩ := hcd
        cases u with
        | nil => exact ⟨_, _, _, e⟩
        | cons w u =>
          cases u with
          | nil => exact ⟨_, _, _, e⟩
          | cons w' u => exact ⟨_, _, _, e⟩
      simp only [List.head?_cons, Option.some.injEq] at hh
      subst hh
      refine ⟨linesThrough (l0.p1 :: q :: qs), ?_, ⟨linesThrough_unbroken _, rfl, by rw [linesThrough_last, hla]⟩, ?_, ?_⟩
      · intro depth hd
        unfold simplifyLines
        rw [hl]
        simp only
        rw [← hps, h1 depth (by omega)]
        rfl
      · have key : ∀ (p q : P ℝ) (qs : List (P ℝ)) (z : P ℝ), (p :: q :: qs).getLast? = some z → (linesThrough (p :: q :: qs)).map Line.p1 ++ [z] = p :: q :: qs := by
          intro p q qs
          induction qs generalizing p q with
          | nil =>
            intro z hz
            simp only [List.getLast?_cons_cons, List.getLast?_singleton, Option.some.injEq] at hz
            subst hz
            rfl
          | cons r rs ih =>
            intro z hz
            rw [List.getLast?_cons_cons] at hz
            have e : linesThrough (p :: q :: r :: rs) = ⟨p, q⟩ :: linesThrough (q :: r :: rs) := rfl
            rw [e, List.map_cons, List.cons_append, ih q r z hz]
        rw [key _ q qs last.p2 hla]
        exact h2
      · intro hu l hm t t0 t1
        have hun := unbroken_points (l0 :: ls) last hl hu
        have hc : Consecutive l.p1 l.p2 ps := (linesThrough_mem ps l).1 (by rw [hps, hun]; exact hm)
        obtain ⟨c, d, hcd, hnear⟩ := h5 _ _ hc
        exact ⟨⟨c, d⟩, (linesThrough_mem _ _).2 hcd, hnear t t0 t1⟩

/-- **C183**, one sub-path: if the points on the tool marks at this offset are the same or clearly apart from one mark to the next, and not all the same, then
what is drawn is the smoothed form of a connected path from the point on the first mark to the point on the last one, whose lines are the simplified
outline through the points (see C138); a single line is drawn as it is.  (Missing: what smoothing does to it is C118.) -/
theorem C183_subpath_partial (eps tol k : ℝ) (heps : 0 < eps) (htol : 0 ≤ tol) (marks : List (Line ℝ)) (offset : ℝ) (h0 : 0 ≤ offset)
    (hm : ∀ l ∈ marks, 0 < segLen l) (a : P ℝ) (ps : List (P ℝ)) (b : P ℝ)
    (hps : List.Forall₂ (fun (l : Line ℝ) p => p = segPt l (offset / segLen l)) marks (a :: ps)) (hlast : (a :: ps).getLast? = some b)
    (hc : (a :: ps).IsChain (SameOrApart eps)) (hmove : ∃ q ∈ ps, q ≠ a) :
    ∃ (path r : List (Line ℝ)) (depth0 : Nat), makeOutlinePath eps (a :: ps) = .ok path ∧ Leads a b r ∧ (r.map Line.p1 ++ [b]).Sublist (path.map Line.p1 ++ [b]) ∧
      (Unbroken path → ∀ l ∈ path, ∀ t, 0 ≤ t → t ≤ 1 → NearLines tol r (segPt l t)) ∧
      (∀ depth, depth0 ≤ depth → ∀ l, r = [l] → subPath eps tol k depth marks offset = some (.ok [.line l])) ∧
      ∀ depth, depth0 ≤ depth → ∀ cs, smoothPath eps k (r.map Shape.line) = .ok (.curves cs) →
        subPath eps tol k depth marks offset = some (.ok (cs.map Shape.bez)) := by
  have hpts : ∀ (marks : List (Line ℝ)) (qs : List (P ℝ)), (∀ l ∈ marks, 0 < segLen l) →
      List.Forall₂ (fun (l : Line ℝ) p => p = segPt l (offset / segLen l)) marks qs → subPoints offset marks = .ok qs := by
    intro marks qs hm h
    induction h with
    | nil => rfl
    | cons h1 h2 ih =>
      rename_i l p ls qs
      have hl := hm l (by simp)
      rw [subPoints, length_real, ih (fun x hx => hm x (by simp [hx]))]
      have : pdiv offset (segLen l) = .ok (offset / segLen l) := by
        unfold pdiv
        simp [hl.ne']
      rw [this]
      simp only [bind, Except.bind, pure, Except.pure, h1, pointAt_real]
  have hsp := hpts marks (a :: ps) hm hps
  obtain ⟨l, ls, hout, hl1, hl2⟩ := C138_ends_partial eps heps a ps b hlast hc hmove
  obtain ⟨r, h1, h2, h3, h4⟩ := C183_simplified eps tol htol (l :: ls) a b (by rw [← hl1]; rfl) hl2
  have hsub : ∀ depth, (l :: ls).length + 2 ≤ depth → subPath eps tol k depth marks offset = some ((smoothPath eps k (r.map Shape.line)).map (smoothedShapes r)) := by
    intro depth hd
    unfold subPath
    rw [hsp]
    simp only [hout, h1 depth hd, Option.map_some]
  refine ⟨l :: ls, r, (l :: ls).length + 2, hout, h2, h3, h4, ?_, ?_⟩
  · intro depth hd x hx
    rw [hsub depth hd, hx]
    rfl
  · intro depth hd cs hcs
    rw [hsub depth hd, hcs]
    rfl

/-- **C183**, a part that fails: a tool path with a single tool mark, at least as long as the step, ends in a `ValueError`, and nothing is drawn. -/
theorem C183_refuted_single (eps tol k step : ℝ) (m : Line ℝ) (hs : 0 < step) (hlen : step < segLen m) :
    ∃ fuel0, ∀ fuel depth, fuel0 ≤ fuel → drawSubpaths eps tol k step fuel depth [m] = some ([], some .valueError) := by
  obtain ⟨n, fuel0, h1, h2⟩ := C139_offsets_partial step (segLen m) hs
  have hn : 0 < n := (h2 0).2 (by simpa using hlen)
  obtain ⟨n, rfl⟩ : ∃ n', n = n' + 1 := ⟨n - 1, by omega⟩
  refine ⟨fuel0, fun fuel depth hf => ?_⟩
  have hml : 0 < segLen m := hs.trans hlen
  unfold drawSubpaths
  dsimp only
  rw [length_real, h1 fuel hf, List.range_succ_eq_map, List.map_cons]
  simp only [Option.bind_some, drawAll]
  have hsub : subPath eps tol k depth [m] ((((0 : ℕ) : ℝ) + 1) * step) = some (.error .valueError) := by
    unfold subPath
    have : subPoints ((((0 : ℕ) : ℝ) + 1) * step) [m] = .ok [segPt m (step / segLen m)] := by
      rw [subPoints, length_real]
      have : pdiv ((((0 : ℕ) : ℝ) + 1) * step) (segLen m) = .ok (step / segLen m) := by
        unfold pdiv
        simp [hml.ne']
      rw [this]
      simp only [subPoints, bind, Except.bind, pure, Except.pure, pointAt_real]
    rw [this]
    rfl
  rw [hsub]
  rfl

/-- **C183**, a part that fails: a negative tolerance may send the simplification into an endless recursion. -/
theorem C183_refuted_tolerance (eps tol : ℝ) (heps : 0 < eps) (htol : tol < 0) (depth : Nat) :
    simplifyLines eps tol depth [⟨⟨0, 0⟩, ⟨eps, 0⟩⟩, ⟨⟨eps, 0⟩, ⟨2 * eps, 0⟩⟩, ⟨⟨2 * eps, 0⟩, ⟨3 * eps, 0⟩⟩] = none := by
  have := rdp_negative_tolerance_diverges eps tol heps htol depth
  unfold simplifyLines
  simp only [List.getLast?_cons_cons, List.getLast?_singleton, List.map_cons, List.map_nil, List.cons_append, List.nil_append]
  rw [this]
  rfl

/-- **C183**, the outline: without tool marks nothing is drawn; if the ends of the marks on each side are the same or clearly apart from one mark to the
next, and not all the same, then two paths are drawn, each from an end of the first mark to the corresponding end of the last one (missing: see C138). -/
theorem C183_outline_partial (eps : ℝ) (heps : 0 < eps) (first : Line ℝ) (marks : List (Line ℝ)) (last : Line ℝ) (hlast : (first :: marks).getLast? = some last)
    (h1 : ((first :: marks).map Line.p1).IsChain (SameOrApart eps)) (h2 : ((first :: marks).map Line.p2).IsChain (SameOrApart eps))
    (hm1 : ∃ m ∈ marks, m.p1 ≠ first.p1) (hm2 : ∃ m ∈ marks, m.p2 ≠ first.p2) :
    drawOutline eps ([] : List (Line ℝ)) = .ok [] ∧
    ∃ a b, drawOutline eps (first :: marks) = .ok [a, b] ∧ a.head?.map Line.p1 = some first.p1 ∧ a.getLast?.map Line.p2 = some last.p1 ∧
      b.head?.map Line.p1 = some first.p2 ∧ b.getLast?.map Line.p2 = some last.p2 := by
  refine ⟨rfl, ?_⟩
  obtain ⟨m1, hm1, hn1⟩ := hm1
  obtain ⟨m2, hm2, hn2⟩ := hm2
  have l1 : ((first :: marks).map Line.p1).getLast? = some last.p1 := by rw [List.getLast?_map, hlast]; rfl
  have l2 : ((first :: marks).map Line.p2).getLast? = some last.p2 := by rw [List.getLast?_map, hlast]; rfl
  obtain ⟨a, as, e1, e2, e3⟩ := C138_ends_partial eps heps first.p1 (marks.map Line.p1) last.p1 l1 h1 ⟨m1.p1, List.mem_map.2 ⟨m1, hm1, rfl⟩, hn1⟩
  obtain ⟨b, bs, f1, f2, f3⟩ := C138_ends_partial eps heps first.p2 (marks.map Line.p2) last.p2 l2 h2 ⟨m2.p2, List.mem_map.2 ⟨m2, hm2, rfl⟩, hn2⟩
  refine ⟨a :: as, b :: bs, ?_, by rw [← e2]; rfl, e3, by rw [← f2]; rfl, f3⟩
  unfold drawOutline
  simp only [List.map_cons, e1, f1, bind, Except.bind, pure, Except.pure, List.isEmpty_cons, Bool.or_self, Bool.false_eq_true, if_false]

/-- Four tool marks across a way with a small bump: the sub-path through their middles is straightened, and drawn as one line. -/
example : subPath (1/1000 : ℚ) (1/2) (1/2) 9 [⟨⟨0, 0⟩, ⟨0, 2⟩⟩, ⟨⟨1, 1/4⟩, ⟨1, 9/4⟩⟩, ⟨⟨2, 1/4⟩, ⟨2, 9/4⟩⟩, ⟨⟨3, 0⟩, ⟨3, 2⟩⟩] 1 = some (.ok [.line ⟨⟨0, 1⟩, ⟨3, 1⟩⟩]) := by
  decide +kernel

theorem drawAll_done (eps tol k : ℝ) (depth : Nat) (marks : List (Line ℝ)) : ∀ (os : List ℝ) (rs : List (List (Shape ℝ))),
    List.Forall₂ (fun o r => subPath eps tol k depth marks o = some (.ok r)) os rs → drawAll eps tol k depth marks os = some (rs, none)
  | [], _, h => by cases h; rfl
  | o :: os, _, h => by
    cases h with
    | cons h1 h2 =>
      rw [drawAll, h1]
      simp only [Option.bind_some]
      rw [drawAll_done eps tol k depth marks os _ h2]
      rfl

theorem drawAll_stops (eps tol k : ℝ) (depth : Nat) (marks : List (Line ℝ)) (o : ℝ) (e : PyErr) (he : subPath eps tol k depth marks o = some (.error e)) :
    ∀ (os os' : List ℝ) (rs : List (List (Shape ℝ))),
    List.Forall₂ (fun o r => subPath eps tol k depth marks o = some (.ok r)) os rs → drawAll eps tol k depth marks (os ++ o :: os') = some (rs, some e)
  | [], os', _, h => by
    cases h
    rw [List.nil_append, drawAll, he]
    rfl
  | x :: os, os', _, h => by
    cases h with
    | cons h1 h2 =>
      rw [List.cons_append, drawAll, h1]
      simp only [Option.bind_some]
      rw [drawAll_stops eps tol k depth marks o e he os os' _ h2]
      rfl

/-- **C183**, all sub-paths: with a positive step a sub-path is drawn for each whole multiple of the step that is shorter than the first tool mark, in this
order; the first one that raises an exception (see above) ends the drawing, and those before it stay. -/
theorem C183_all (eps tol k step : ℝ) (hs : 0 < step) (m : Line ℝ) (marks : List (Line ℝ)) :
    ∃ n fuel0, (∀ i : ℕ, i < n ↔ ((i : ℝ) + 1) * step < segLen m) ∧ ∀ fuel depth (rs : List (List (Shape ℝ))), fuel0 ≤ fuel → rs.length ≤ n →
      (∀ (i : ℕ) r, rs[i]? = some r → subPath eps tol k depth (m :: marks) (((i : ℝ) + 1) * step) = some (.ok r)) →
      (rs.length = n → drawSubpaths eps tol k step fuel depth (m :: marks) = some (rs, none)) ∧
      ∀ e, rs.length < n → subPath eps tol k depth (m :: marks) (((rs.length : ℝ) + 1) * step) = some (.error e) →
        drawSubpaths eps tol k step fuel depth (m :: marks) = some (rs, some e) := by
  obtain ⟨n, fuel0, h1, h2⟩ := C139_offsets_partial step (segLen m) hs
  refine ⟨n, fuel0, h2, fun fuel depth rs hf hn hrs => ?_⟩
  have hfa : List.Forall₂ (fun o r => subPath eps tol k depth (m :: marks) o = some (.ok r)) ((List.range rs.length).map fun i : ℕ => ((i : ℝ) + 1) * step) rs := by
    rw [List.forall₂_iff_get]
    refine ⟨by simp, fun i hi1 hi2 => ?_⟩
    simp only [List.get_eq_getElem, List.getElem_map, List.getElem_range]
    exact hrs i _ (List.getElem?_eq_getElem hi2)
  have hd : drawSubpaths eps tol k step fuel depth (m :: marks) = drawAll eps tol k depth (m :: marks) ((List.range n).map fun i : ℕ => ((i : ℝ) + 1) * step) := by
    unfold drawSubpaths
    dsimp only
    rw [length_real, h1 fuel hf]
    rfl
  rw [hd]
  constructor
  · intro h; subst h
    exact drawAll_done _ _ _ _ _ _ _ hfa
  · intro e hlt he
    obtain ⟨d, rfl⟩ : ∃ d, n = rs.length + (d + 1) := ⟨n - rs.length - 1, by omega⟩
    rw [List.range_add, List.map_append, List.range_succ_eq_map, List.map_cons, List.map_cons]
    have := drawAll_stops eps tol k depth (m :: marks) _ e he _ ((List.map (fun i : ℕ => ((i : ℝ) + 1) * step) (List.map (fun x => rs.length + x) (List.map Nat.succ (List.range d))))) rs hfa
    simpa using this

/-- The same marks with a step of 1/2: three sub-paths, in the order of their offsets. -/
example : drawSubpaths (1/1000 : ℚ) (1/2) (1/2) (1/2) 9 9 [⟨⟨0, 0⟩, ⟨0, 2⟩⟩, ⟨⟨1, 1/4⟩, ⟨1, 9/4⟩⟩, ⟨⟨2, 1/4⟩, ⟨2, 9/4⟩⟩, ⟨⟨3, 0⟩, ⟨3, 2⟩⟩] =
    some ([[.line ⟨⟨0, 1/2⟩, ⟨3, 1/2⟩⟩], [.line ⟨⟨0, 1⟩, ⟨3, 1⟩⟩], [.line ⟨⟨0, 3/2⟩, ⟨3, 3/2⟩⟩]], none) := by
  decide +kernel

end Verif.Cam
