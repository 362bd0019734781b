import Verif.Cam.Props39
import Verif.Cam.Props28
import Verif.Cam.Props37

/-!
# C191: curves of a drawing are cut as their biarcs
-/

set_option linter.unusedSectionVars false

namespace Verif.Cam
open Verif PyFloat PyTrig Geom GCode
open Verif.Svg (LenUnit Numeral XNode NumEnv Conv Length linesThrough Sub el at')

/-! ## Specification -/

/-- Specification: `part` is what is cut for the segment `s`: lines and arcs as they are; for a Bezier curve, consecutive parts of it from its start to its end, each replaced as `GoodPiece` of C95 says. -/
def CutFor (eps tol flat : ℝ) (depth : Nat) (s : Shape ℝ) (part : List (Shape ℝ)) : Prop :=
  ((∃ l, s = .line l) ∧ part = [s]) ∨ ((∃ a, s = .arc a) ∧ part = [s]) ∨
  ∃ b ps, s = .bez b ∧ Tiles 0 1 ps ∧ part = ps.flatMap Piece.out ∧ ∀ p ∈ ps, GoodPiece eps tol flat ((1 / 2) ^ (depth - 1)) b p

/-- Specification: the path `q` is the path `p` with its curves replaced. -/
def CurvesCut (eps tol flat : ℝ) (depth : Nat) (p q : Path ℝ) : Prop :=
  ∃ parts, List.Forall₂ (fun s part => CutFor eps tol flat depth s.shape part) p parts ∧ q.map Seg.shape = parts.flatten

/-! ## Lemmas -/

section
variable {K : Type} [PyTrig K]

theorem flatten_singletons {α : Type} (l : List α) : (l.map fun p => [p]).flatten = l := by
  induction l with
  | nil => rfl
  | cons a l ih => rw [List.map_cons, List.flatten_cons, ih]; rfl

/-- With all options off, only curves are converted. -/
theorem prepare_curves (e : Env K) (o : Opts K) (ho : Plain o) (tol : K) (l : List (Path K)) : prepare e o tol l = l.mapM (biarcPath e o) := by
  have h1 : ∀ p, preFirst e o p = (biarcPath e o p).map fun q => [q] := by
    intro p
    unfold preFirst
    rw [ho.fillet, ho.split]
    cases biarcPath e o p <;> rfl
  have h2 : ∀ l : List (Path K), l.mapM (preFirst e o) = (l.mapM (biarcPath e o)).map fun q => q.map fun p => [p] := by
    intro l
    induction l with
    | nil => rfl
    | cons p l ih =>
      rw [List.mapM_cons, List.mapM_cons, h1, ih]
      cases biarcPath e o p with
      | error x => rfl
      | ok q => cases l.mapM (biarcPath e o) <;> rfl
  unfold prepare preprocess preprocessSimple
  rw [ho.sort, ho.offset, ho.smooth]
  dsimp only
  rw [show (pure l : Except PyErr (List (Path K))) = .ok l from rfl]
  simp only [bind, Except.bind]
  rw [h2]
  cases hm : l.mapM (biarcPath e o) with
  | error x => rfl
  | ok r =>
    simp only [Except.map, pure, Except.pure, Bool.false_and, Bool.false_eq_true, if_false]
    rw [flatten_singletons]
    cases hb : o.brush with
    | none => rfl
    | some b =>
      dsimp only
      rw [(ho.brush b hb).1, (ho.brush b hb).2]
      rfl

end

theorem biarcSeg_cut (e : Env ℝ) (heps : 0 < e.eps) (he : e.eps ≤ 1 / 14) (o : Opts ℝ) (s : Seg ℝ) (q : Path ℝ) (h : biarcSeg e o s = .ok q) :
    CutFor e.eps o.biarcTol o.lineFlatness o.biarcMaxDepth s.shape (q.map Seg.shape) ∧ (s.Simple → q = [s]) ∧ SimplePath q := by
  unfold biarcSeg at h
  cases hs : s.shape with
  | line l =>
    rw [hs] at h; cases h
    refine ⟨.inl ⟨⟨l, rfl⟩, by simp [hs]⟩, fun _ => rfl, ?_⟩
    intro t ht; rw [List.mem_singleton] at ht; subst ht; exact .inl ⟨l, hs⟩
  | arc a =>
    rw [hs] at h; cases h
    refine ⟨.inr (.inl ⟨⟨a, rfl⟩, by simp [hs]⟩), fun _ => rfl, ?_⟩
    intro t ht; rw [List.mem_singleton] at ht; subst ht; exact .inr ⟨a, hs⟩
  | bez b =>
    rw [hs] at h
    dsimp only at h
    obtain ⟨l, hl, h⟩ := Geom.ok_bind h
    cases h
    have hmap : (l.map fun sh => (⟨sh, {}⟩ : Seg ℝ)).map Seg.shape = l := by simp [Function.comp_def]
    obtain ⟨ps, h1, h2, h3⟩ := C95_biarc_partial e.eps o.biarcTol o.lineFlatness heps he o.biarcMaxDepth b l hl
    rw [hmap]
    refine ⟨.inr (.inr ⟨b, ps, rfl, h1, h2, h3⟩), ?_, ?_⟩
    · rintro (⟨x, hx⟩ | ⟨x, hx⟩) <;> rw [hs] at hx <;> cases hx
    · intro t ht
      obtain ⟨sh, hsh, rfl⟩ := List.mem_map.1 ht
      rw [h2, List.mem_flatMap] at hsh
      obtain ⟨p, hp, hsh⟩ := hsh
      exact out_lineOrArc (h3 p hp) sh hsh
  | other p q => rw [hs] at h; cases h

theorem biarcPath_cut (e : Env ℝ) (heps : 0 < e.eps) (he : e.eps ≤ 1 / 14) (o : Opts ℝ) (p : Path ℝ) : ∀ q, biarcPath e o p = .ok q →
    CurvesCut e.eps o.biarcTol o.lineFlatness o.biarcMaxDepth p q ∧ SimplePath q := by
  induction p with
  | nil => intro q h; cases h; exact ⟨⟨[], .nil, rfl⟩, fun _ h => by cases h⟩
  | cons s p ih =>
    intro q h
    unfold biarcPath at h
    obtain ⟨l, hl, h⟩ := Geom.ok_bind h
    obtain ⟨tl, htl, h⟩ := Geom.ok_bind h
    cases h
    obtain ⟨⟨parts, i1, i2⟩, i3⟩ := ih tl htl
    obtain ⟨j1, -, j3⟩ := biarcSeg_cut e heps he o s l hl
    refine ⟨⟨l.map Seg.shape :: parts, .cons j1 i1, by simp [i2]⟩, ?_⟩
    intro t ht
    rcases List.mem_append.1 ht with ht | ht
    · exact j3 t ht
    · exact i3 t ht

/-! ## Properties -/

/-- **C191**, the paths: with the processing options off, the paths that are cut are the given ones in their order, with the curves replaced by lines and arcs; lines and arcs stay as they are. -/
theorem C191_paths (e : Env ℝ) (heps : 0 < e.eps) (he : e.eps ≤ 1 / 14) (o : Opts ℝ) (ho : Plain o) (tol : ℝ) (l paths : List (Path ℝ)) (h : prepare e o tol l = .ok paths) :
    List.Forall₂ (CurvesCut e.eps o.biarcTol o.lineFlatness o.biarcMaxDepth) l paths ∧ ∀ p ∈ paths, SimplePath p := by
  rw [prepare_curves e o ho] at h
  have h' := mapM_forall₂ _ l paths h
  refine ⟨h'.imp fun p q hpq => (biarcPath_cut e heps he o p q hpq).1, ?_⟩
  clear h
  induction h' with
  | nil => intro p hp; cases hp
  | cons h1 _ ih =>
    intro p hp
    rcases List.mem_cons.1 hp with rfl | hp
    · exact (biarcPath_cut e heps he o _ _ h1).2
    · exact ih p hp

/-- **C191**, the whole run: for every document with a size, units and at least one shape to cut, whose shapes consist of lines, arcs and Bezier curves, and settings that leave the
paths alone, the document opens, a program is generated, and every program that is completed cuts, for each pass, the paths of the drawing where they are on the page (in user units, measured upwards from the lower left corner),
with every curve replaced by chords and tangent arcs as in C95, each line with a straight feed and each arc with a circular feed in the way of C188; if it does not complete, then the replacement of one of the curves
raises (`C95_refuted_origin`, `C191_refuted_corner`).
Missing: what C95 and C188 leave open. -/
theorem C191_document_partial (v : Str) (c : Conv ℝ) (hc : c.Positive) (eps : ℝ) (heps : 0 < eps) (e : Env ℝ) (rounds limit : Nat) (doc : XNode) (ids : List Str)
    (W H bw bh : ℝ) (hsheet : Sheet (realEnv v).num c doc W H bw bh) (nv : XNode) (hnv : namedView doc = some nv)
    (o : TOpts ℝ) (ho : Untouched o) (ht : 0 < o.tolerance) (ht' : o.tolerance ≤ 1 / 14) (hd : o.zDepth < 0)
    (hw : o.aFeedMatch = true → o.toolWidth ≠ 0) (u : LenUnit) (hu : u = .inch ∨ u = .mm) (hgu : gcodeUnit o.gcodeUnits (unitsOf nv) = .ok u.name)
    (shapes : List (Svg.At × Mat ℝ)) (hsh : Svg.tcncShapes (realEnv v).num doc limit ids = .ok shapes) (hne : shapes ≠ [])
    (lss : List (List (List (Shape ℝ)))) (hst : List.Forall₂ (fun x ls => Draws (realEnv v).num o.tolerance rounds x.1.node x.2 ls) shapes lss) :
    ∃ d, openDoc (realEnv v).num c eps doc = .ok d ∧ (∃ r, Ran (realEnv v) e rounds limit doc d ids o r) ∧
      ∀ r, Ran (realEnv v) e rounds limit doc d ids o r → ∃ ds s, r = some (ds, s) ∧
        (s.err = none → ∃ paths : List (Path ℝ),
          List.Forall₂ (CurvesCut o.tolerance o.biarcTol o.lineFlatness o.biarcMaxDepth) (pagePaths bh shapes lss) paths ∧
          Journey (WellMade o.tolerance o.tolerance (u.size c.em c.em * (bw / W))) Machine.off (blocksOf s.gen.out) (programLegs ds paths)) ∧
        (s.err ≠ none → ∃ p ∈ pagePaths bh shapes lss, ∃ seg ∈ p, ∃ b er, seg.shape = .bez b ∧
          b.biarcApproximation o.tolerance o.biarcTol o.biarcMaxDepth o.lineFlatness = .error er) := by
  have hp : (⟨c.em, c.em⟩ : Conv ℝ).Positive := ⟨hc.1, hc.1⟩
  obtain ⟨hW, hH⟩ := hsheet.sizes hc
  have hscale : 0 < bw / W := div_pos hsheet.pos hW
  refine ⟨_, openDoc_sheet hc heps hsheet hnv, ?_⟩
  obtain ⟨subs, hsubs, hpo⟩ := all_upward ht bh hst
  have hmem := pagePaths_mem (bh := bh) hst
  have hrun : runPaths (realEnv v).num o.tolerance rounds limit doc ids bh = .ok (some (pagePaths bh shapes lss)) := by
    unfold runPaths
    rw [hsh]
    simp only [bind, Except.bind]
    rw [if_neg (by simpa using hne), hsubs]
    simp only [pure, Except.pure, hpo]
  constructor
  · obtain ⟨g, hg⟩ := initGcode_ok v ⟨unitsOf nv, ⟨c.em, c.em⟩, bw / W⟩ hp hscale.ne' o hw u hu hgu ht
    obtain ⟨ds, s, hgen⟩ := C104_terminates_partial { e with eps := o.tolerance } ht o (pagePaths bh shapes lss) (Cam.init g) hd
    exact ⟨_, .cut _ ds s hrun ⟨g, hg, hgen⟩⟩
  intro r hr
  cases hr with
  | nothing h => rw [hrun] at h; cases h
  | cut paths' ds s h hgen =>
    rw [hrun] at h
    injection h with h
    injection h with h
    subst h
    refine ⟨ds, s, rfl, ?_, ?_⟩
    · intro herr
      have hprep : ∃ paths, prepare { e with eps := o.tolerance } (initCam o) o.tolerance (pagePaths bh shapes lss) = .ok paths := by
        obtain ⟨g, hg', hgen'⟩ := hgen
        obtain ⟨af, u, k, n, -, -, -, -, -, -, -, -, -, -, -, -, -, -, htol, -, -⟩ := initGcode_fields hg'
        have htol' : (Cam.init g).gen.cfg.tol = o.tolerance := htol
        cases hgen' with
        | fails er h => exact absurd herr (raise_err _ _)
        | noStart paths h h' => rw [htol'] at h; exact ⟨paths, h⟩
        | runs paths ds s1 h _ _ => rw [htol'] at h; exact ⟨paths, h⟩
      obtain ⟨paths, hprep⟩ := hprep
      obtain ⟨h1, h2⟩ := C191_paths { e with eps := o.tolerance } ht ht' (initCam o) ho.plain o.tolerance _ paths hprep
      obtain ⟨u', hu', hgu', hj⟩ := C188_journey_partial v ⟨unitsOf nv, ⟨c.em, c.em⟩, bw / W⟩ hp hscale.ne' _ o ht.le _ paths ds s hgen herr hprep h2
      have hsame : u' = u := by
        rw [show gcodeUnit o.gcodeUnits (unitsOf nv) = .ok u'.name from hgu'] at hgu
        injection hgu with h1
        rcases hu with rfl | rfl <;> rcases hu' with rfl | rfl <;> first | rfl | exact absurd h1 (by decide)
      subst hsame
      exact ⟨paths, h1, hj⟩
    · intro herr
      cases hprep : prepare { e with eps := o.tolerance } (initCam o) o.tolerance (pagePaths bh shapes lss) with
      | ok paths => exact absurd (generated_no_error ht ho.reload hprep hgen) herr
      | error er =>
        rw [prepare_curves _ _ ho.plain] at hprep
        by_contra hcon
        push Not at hcon
        have key : ∀ p ∈ pagePaths bh shapes lss, ∃ q, biarcPath { e with eps := o.tolerance } (initCam o) p = .ok q := by
          intro p hp
          obtain ⟨T, l, -, hl, rfl⟩ := hmem p hp
          have hc' := hcon _ hp
          clear hp hcon
          induction l with
          | nil => exact ⟨[], rfl⟩
          | cons s l ih =>
            obtain ⟨q, hq⟩ := ih (fun t ht => hl t (by simp [ht])) fun seg hseg => hc' seg (by rw [List.map_cons]; exact List.mem_cons_of_mem _ hseg)
            have hs := hl s (by simp)
            have hseg : ∃ l', biarcSeg { e with eps := o.tolerance } (initCam o) ⟨segUpward bh T s, {}⟩ = .ok l' := by
              cases s with
              | line a => exact ⟨_, rfl⟩
              | arc a => exact ⟨_, rfl⟩
              | bez b =>
                have := hc' ⟨segUpward bh T (.bez b), {}⟩ (by simp)
                cases hb : (⟨upward bh T b.p1, upward bh T b.c1, upward bh T b.c2, upward bh T b.p2⟩ : Bez ℝ).biarcApproximation o.tolerance o.biarcTol o.biarcMaxDepth o.lineFlatness with
                | error x => exact absurd hb (this _ x rfl)
                | ok l' =>
                  refine ⟨l'.map fun sh => ⟨sh, {}⟩, ?_⟩
                  show (Bez.biarcApproximation o.tolerance o.biarcTol o.biarcMaxDepth o.lineFlatness _ >>= fun l => pure (l.map fun sh => (⟨sh, {}⟩ : Seg ℝ))) = _
                  rw [hb]; rfl
              | other a b => exact hs.1.elim
            obtain ⟨l', hl'⟩ := hseg
            refine ⟨l' ++ q, ?_⟩
            rw [List.map_cons, biarcPath, hl', hq]
            rfl
        obtain ⟨r, hr⟩ := mapM_total _ _ key
        rw [hr] at hprep; cases hprep

/-! ## Example -/

/-- The path of the example: a curve and a line. -/
def pathB : XNode := el "path" [at' "d" "M1 1C2 1 4 1 5 1L5 4"] []

/-- A sheet of two inches by one, in user units of a tenth of an inch, with one path. -/
def docB : XNode := el "svg" [at' "width" "2in", at' "height" "1in", at' "viewBox" "0 0 20 10"] [
  .elem .other "namedview".toList [at' "units" "in"] [], pathB]

theorem pathB_draws (v : Str) : Draws (realEnv v).num (1 / 1000) 0 pathB Mat.ident [[.bez ⟨⟨1, 1⟩, ⟨2, 1⟩, ⟨4, 1⟩, ⟨5, 1⟩⟩, .line ⟨⟨5, 1⟩, ⟨5, 4⟩⟩]] := by
  constructor
  · have hn : ∀ k : Nat, (realEnv v).num.ofDec false k 0 = (k : ℝ) := by intro k; simp [realEnv]
    have h : Svg.elementGeometry (realEnv v).num (1 / 1000) 0 (elemOf pathB) none none =
        let n : Nat → ℝ := fun k => (realEnv v).num.ofDec false k 0
        .ok [.path [.bez ⟨⟨n 1, n 1⟩, ⟨n 2, n 1⟩, ⟨n 4, n 1⟩, ⟨n 5, n 1⟩⟩, .line ⟨⟨n 5, n 1⟩, ⟨n 5, n 4⟩⟩]] := rfl
    rw [h]
    simp only [hn, List.map_cons, List.map_nil]
    norm_num
  · intro l hl s hs
    rw [List.mem_singleton] at hl
    subst hl
    simp only [List.mem_cons, List.not_mem_nil, or_false] at hs
    rcases hs with rfl | rfl
    · exact ⟨by norm_num [Cuttable, sqDist], fun a ha => by cases ha⟩
    · exact ⟨by norm_num [Cuttable, sqDist], fun a ha => by cases ha⟩

theorem docB_shapes (v : Str) : Svg.tcncShapes (realEnv v).num docB 3 [] = .ok [(⟨pathB, [docB]⟩, Mat.ident)] := by
  have h : Svg.tcncShapes (realEnv v).num docB 3 [] = .ok [(⟨pathB, [docB]⟩, (Mat.ident : Mat ℝ).compose Mat.ident)] := rfl
  rw [h, (C41_compose Mat.ident Mat.ident Mat.ident ⟨0, 0⟩).2.2.1]

theorem docB_sheet (v : Str) : Sheet (realEnv v).num Conv.default docB 180 90 20 10 :=
  ⟨(docD_sheet v).width, (docD_sheet v).height, (docD_sheet v).box, (docD_sheet v).pos, (docD_sheet v).even⟩

/-- Non-vacuity of `C191_document_partial`: the sheet above is cut completely. -/
example (v : Str) (e : Env ℝ) : ∃ d, openDoc (realEnv v).num Conv.default (1 / 100000) docB = .ok d ∧ ∃ ds s paths, Ran (realEnv v) e 0 3 docB d [] toptD (some (ds, s)) ∧ s.err = none ∧
    List.Forall₂ (CurvesCut (1 / 1000) (1 / 100) (1 / 100) 4) (pagePaths 10 [(⟨pathB, [docB]⟩, Mat.ident)] [[[.bez ⟨⟨1, 1⟩, ⟨2, 1⟩, ⟨4, 1⟩, ⟨5, 1⟩⟩, .line ⟨⟨5, 1⟩, ⟨5, 4⟩⟩]]]) paths ∧
    Journey (WellMade (1 / 1000) (1 / 1000) (90 * (20 / 180))) Machine.off (blocksOf s.gen.out) (programLegs ds paths) := by
  obtain ⟨d, h1, ⟨r, h2⟩, h3⟩ := C191_document_partial v Conv.default (by constructor <;> norm_num [Conv.default]) (1 / 100000) (by norm_num) e 0 3 docB []
    180 90 20 10 (docB_sheet v) (.elem .other "namedview".toList [at' "units" "in"] []) rfl toptD
    ⟨rfl, rfl, rfl, rfl, rfl, ⟨by decide, by decide⟩, rfl, rfl⟩ (by norm_num [toptD]) (by norm_num [toptD]) (by norm_num [toptD]) (fun h => by cases h) .inch (.inl rfl) rfl _ (docB_shapes v) (by simp)
    _ (.cons (pathB_draws v) .nil)
  obtain ⟨ds, s, rfl, h4, h5⟩ := h3 r h2
  have herr : s.err = none := by
    by_contra hcon
    obtain ⟨p, hp, seg, hseg, b, er, hb, hbad⟩ := h5 hcon
    have hp' : p = [⟨.bez ⟨⟨1, 9⟩, ⟨2, 9⟩, ⟨4, 9⟩, ⟨5, 9⟩⟩, {}⟩, ⟨.line ⟨⟨5, 9⟩, ⟨5, 6⟩⟩, {}⟩] := by
      have hp := hp
      simp only [pagePaths, List.zip_cons_cons, List.zip_nil_right, List.flatMap_cons, List.flatMap_nil, List.append_nil, List.map_cons, List.map_nil, List.mem_singleton] at hp
      rw [hp]
      simp only [segUpward, upward, Mat.ident, real_one, real_zero]
      norm_num
    subst hp'
    simp only [List.mem_cons, List.not_mem_nil, or_false] at hseg
    rcases hseg with rfl | rfl
    · have hb' : b = ⟨⟨1, 9⟩, ⟨2, 9⟩, ⟨4, 9⟩, ⟨5, 9⟩⟩ := by simpa using hb.symm
      subst hb'
      have e1 : (⟨1, 9⟩ : P ℝ).eq (1 / 1000) ⟨5, 9⟩ = false := by rw [eq_false_iff]; norm_num [sqDist]
      have e2 : (⟨1, 9⟩ : P ℝ).eq (1 / 1000) ⟨2, 9⟩ = false := by rw [eq_false_iff]; norm_num [sqDist]
      have hp : ∀ x : ℝ, x = 2 ∨ x = 4 → Line.distanceToPoint (1 / 1000) ⟨⟨1, 9⟩, ⟨5, 9⟩⟩ ⟨x, 9⟩ true = 0 := by
        intro x hx
        unfold Line.distanceToPoint
        have : Line.normalProjectionPoint (1 / 1000) ⟨⟨1, 9⟩, ⟨5, 9⟩⟩ ⟨x, 9⟩ true = ⟨x, 9⟩ := by
          unfold Line.normalProjectionPoint P.normalProjection
          rcases hx with rfl | rfl <;> norm_num [P.sub, P.add, P.mul, P.dot, P.length2]
        rw [this, distance_real]
        simp [sqDist]
      have hgood : (Bez.mk ⟨1, 9⟩ ⟨2, 9⟩ ⟨4, 9⟩ ⟨5, 9⟩ : Bez ℝ).biarcApproximation (1 / 1000) (1 / 100) 4 (1 / 100) = .ok [.line ⟨⟨1, 9⟩, ⟨5, 9⟩⟩] := by
        unfold Bez.biarcApproximation Bez.flatness
        simp only [e1, e2, Bool.false_and, Bool.false_eq_true, if_false, hp 2 (Or.inl rfl), hp 4 (Or.inr rfl)]
        norm_num [pmax]
      have hbad' : (Bez.mk ⟨1, 9⟩ ⟨2, 9⟩ ⟨4, 9⟩ ⟨5, 9⟩ : Bez ℝ).biarcApproximation (1 / 1000) (1 / 100) 4 (1 / 100) = .error er := hbad
      rw [hgood] at hbad'
      cases hbad'
    · cases hb
  obtain ⟨paths, h6, h7⟩ := h4 herr
  refine ⟨d, h1, ds, s, paths, h2, herr, h6, ?_⟩
  simpa [LenUnit.size, toptD] using h7

end Verif.Cam
