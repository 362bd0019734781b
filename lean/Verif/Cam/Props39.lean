import Verif.Cam.Props22
import Verif.Cam.Props38
import Verif.Geom.Props24

/-!
# C190: from a drawing of lines and circles to the program
-/

set_option linter.unusedSectionVars false

namespace Verif.Cam
open Verif PyFloat PyTrig Geom GCode
open Verif.Svg (LenUnit Numeral XNode NumEnv Conv Length linesThrough Sub el at')

/-! ## Specification -/

/-- Specification: a line, an arc of at most half a turn about its centre, or a Bezier curve, whose ends are at least `eps` apart. -/
def Cuttable (eps : ℝ) : Shape ℝ → Prop
  | .line l => eps ^ 2 ≤ sqDist l.p1 l.p2
  | .arc a => eps ^ 2 ≤ sqDist a.p1 a.p2 ∧ a.OnCircle ∧ rotAbout a.center a.angle a.p1 = a.p2 ∧ |a.angle| ≤ Real.pi
  | .bez b => eps ^ 2 ≤ sqDist b.p1 b.p2
  | .other _ _ => False

/-- Specification: where a point of an element with the transform `T` is, in user units, measured upwards from the lower left corner of a page of the height `height`. -/
noncomputable def upward (height : ℝ) (T : Mat ℝ) (p : P ℝ) : P ℝ :=
  ⟨T.a * p.x + T.b * p.y + T.c, height - (T.d * p.x + T.e * p.y + T.f)⟩

/-- Specification: the same segment on the page: the direction of an arc is reversed since the Y axis is, and once more if the transform of the element is a reflection. -/
noncomputable def segUpward (height : ℝ) (T : Mat ℝ) : Shape ℝ → Shape ℝ
  | .line l => .line ⟨upward height T l.p1, upward height T l.p2⟩
  | .arc a => .arc ⟨upward height T a.p1, upward height T a.p2, a.radius, -T.det * a.angle, upward height T a.center⟩
  | .bez b => .bez ⟨upward height T b.p1, upward height T b.c1, upward height T b.c2, upward height T b.p2⟩
  | s => s

/-- Specification: there are no Bezier curves. -/
def NoCurves (l : List (Shape ℝ)) : Prop := ∀ s ∈ l, ∀ b, s ≠ .bez b

/-- Specification: the element draws the segments `ls`, path by path, before transforms; if there are arcs among them, its transform moves, turns and reflects only, and does not exchange the axes. -/
def Draws (env : NumEnv ℝ) (eps : ℝ) (rounds : Nat) (n : XNode) (T : Mat ℝ) (ls : List (List (Shape ℝ))) : Prop :=
  Svg.elementGeometry env eps rounds (elemOf n) none none = .ok (ls.map .path) ∧
  ∀ l ∈ ls, ∀ s ∈ l, Cuttable eps s ∧ ∀ a, s = .arc a → T.Isometry ∧ T.a ≠ 0

/-- Specification: the paths of the page. -/
noncomputable def pagePaths (height : ℝ) (shapes : List (Svg.At × Mat ℝ)) (lss : List (List (List (Shape ℝ)))) : List (Path ℝ) :=
  (shapes.zip lss).flatMap fun x => x.2.map fun l => l.map fun s => ⟨segUpward height x.1.2 s, {}⟩

/-! ## Lemmas -/

theorem flip_apply (h : ℝ) (T : Mat ℝ) (p : P ℝ) : ((flipY h).compose T).apply p = upward h T p := by
  rw [(C41_compose (flipY h) T Mat.ident p).1]
  show (T.apply p).transform (flipY h) = _
  rw [flip_point]
  apply P.ext_real <;> simp only [upward, Mat.apply, real_add, real_mul]

theorem flip_isometry {T : Mat ℝ} (hT : T.Isometry) (h : ℝ) : ((flipY h).compose T).Isometry := by
  obtain ⟨h1, h2, h3⟩ := hT
  refine ⟨?_, ?_, ?_⟩ <;> simp only [flipY, Mat.scaleTranslate, Mat.compose, real_add, real_mul, real_one, real_neg, real_zero]
  · linear_combination h1
  · linear_combination h2
  · linear_combination h3

theorem flip_det (T : Mat ℝ) (h : ℝ) : ((flipY h).compose T).det = -T.det := by
  simp only [Mat.det, flipY, Mat.scaleTranslate, Mat.compose, real_add, real_mul, real_one, real_neg, real_zero]
  ring

theorem flip_a (T : Mat ℝ) (h : ℝ) : ((flipY h).compose T).a = T.a := by
  simp only [flipY, Mat.scaleTranslate, Mat.compose, real_add, real_mul, real_one, real_neg, real_zero]
  ring

theorem shape_upward {eps : ℝ} (heps : 0 < eps) (h : ℝ) (T : Mat ℝ) (s : Shape ℝ) (hs : Cuttable eps s) (hT : ∀ a, s = .arc a → T.Isometry ∧ T.a ≠ 0) :
    s.p1.eq eps s.p2 = false ∧ Svg.shapeTransform eps ((flipY h).compose T) s = .ok (segUpward h T s) := by
  cases s with
  | line l =>
    refine ⟨(eq_false_iff eps l.p1 l.p2).2 hs, ?_⟩
    show Except.ok _ = Except.ok _
    congr 2
    show (⟨((flipY h).compose T).apply l.p1, ((flipY h).compose T).apply l.p2⟩ : Line ℝ) = _
    rw [flip_apply, flip_apply]
  | arc a =>
    obtain ⟨h1, h2, h3, h4⟩ := hs
    obtain ⟨h5, h6⟩ := hT a rfl
    refine ⟨(eq_false_iff eps a.p1 a.p2).2 h1, ?_⟩
    have := (C61_isometry_partial eps heps a _ (flip_isometry h5 h) (by rw [flip_a]; exact h6) h2 h3 h4 h1).1
    unfold Svg.shapeTransform
    dsimp only
    rw [this]
    simp only [bind, Except.bind, pure, Except.pure, segUpward, flip_apply, flip_det]
  | bez b =>
    refine ⟨(eq_false_iff eps b.p1 b.p2).2 hs, ?_⟩
    show Except.ok (Shape.bez _) = Except.ok (Shape.bez _)
    congr 2
    show (⟨((flipY h).compose T).apply b.p1, ((flipY h).compose T).apply b.c1, ((flipY h).compose T).apply b.c2, ((flipY h).compose T).apply b.p2⟩ : Bez ℝ) = _
    simp only [flip_apply]
  | other p q => exact hs.elim

theorem shapes_upward {eps : ℝ} (heps : 0 < eps) (h : ℝ) (T : Mat ℝ) (l : List (Shape ℝ)) (hl : ∀ s ∈ l, Cuttable eps s ∧ ∀ a, s = .arc a → T.Isometry ∧ T.a ≠ 0) :
    Svg.transformShapes eps ((flipY h).compose T) l = .ok (l.map (segUpward h T)) := by
  induction l with
  | nil => rfl
  | cons s r ih =>
    obtain ⟨h1, h2⟩ := shape_upward heps h T s (hl s (by simp)).1 (hl s (by simp)).2
    rw [Svg.transformShapes, if_neg (by rw [h1]; simp), h2, ih fun t ht => hl t (by simp [ht])]
    rfl

theorem subs_upward {eps : ℝ} (heps : 0 < eps) (h : ℝ) (T : Mat ℝ) (ls : List (List (Shape ℝ)))
    (hl : ∀ l ∈ ls, ∀ s ∈ l, Cuttable eps s ∧ ∀ a, s = .arc a → T.Isometry ∧ T.a ≠ 0) :
    Svg.transformSubs eps ((flipY h).compose T) (ls.map .path) = .ok (ls.map fun l => .path (l.map (segUpward h T))) := by
  induction ls with
  | nil => rfl
  | cons l r ih =>
    rw [List.map_cons, Svg.transformSubs, shapes_upward heps h T l (hl l (by simp)), ih fun t ht => hl t (by simp [ht])]
    rfl

theorem element_upward {env : NumEnv ℝ} {eps : ℝ} (heps : 0 < eps) {rounds : Nat} {n : XNode} {T : Mat ℝ} {ls : List (List (Shape ℝ))} (h : Draws env eps rounds n T ls) (bh : ℝ) :
    Svg.elementGeometry env eps rounds (elemOf n) (some T) (some (flipY bh)) = .ok (ls.map fun l => .path (l.map (segUpward bh T))) := by
  obtain ⟨h1, h2⟩ := h
  have hraw : Svg.rawSubs env eps rounds (elemOf n) = .ok (ls.map .path) := by
    unfold Svg.elementGeometry at h1
    cases hr : Svg.rawSubs env eps rounds (elemOf n) with
    | error x => rw [hr] at h1; cases h1
    | ok subs =>
      rw [hr] at h1
      simp only [bind, Except.bind] at h1
      split at h1 <;> exact h1
  unfold Svg.elementGeometry
  rw [hraw]
  simp only [bind, Except.bind]
  split
  · rename_i h0
    have : ls = [] := by simpa using h0
    subst this; rfl
  · exact subs_upward heps bh T ls h2

theorem all_upward {env : NumEnv ℝ} {eps : ℝ} (heps : 0 < eps) {rounds : Nat} (bh : ℝ) {shapes : List (Svg.At × Mat ℝ)} {lss : List (List (List (Shape ℝ)))}
    (h : List.Forall₂ (fun x ls => Draws env eps rounds x.1.node x.2 ls) shapes lss) :
    ∃ subs, Svg.svgToGeometry env eps rounds (some (flipY bh)) (shapes.map fun x => (elemOf x.1.node, some x.2)) = .ok subs ∧ subs.map pathOf = pagePaths bh shapes lss := by
  induction h with
  | nil => exact ⟨[], rfl, rfl⟩
  | @cons x ls shapes lss h1 _ ih =>
    obtain ⟨subs, i1, i2⟩ := ih
    refine ⟨(ls.map fun l => .path (l.map (segUpward bh x.2))) ++ subs, ?_, ?_⟩
    · rw [List.map_cons, Svg.svgToGeometry, element_upward heps h1, i1]
      rfl
    · rw [List.map_append, i2]
      simp [pagePaths, pathOf, Function.comp_def]

theorem pagePaths_mem {bh : ℝ} {env : NumEnv ℝ} {eps : ℝ} {rounds : Nat} {shapes : List (Svg.At × Mat ℝ)} {lss : List (List (List (Shape ℝ)))}
    (h : List.Forall₂ (fun x ls => Draws env eps rounds x.1.node x.2 ls) shapes lss) :
    ∀ p ∈ pagePaths bh shapes lss, ∃ T l, l ∈ lss.flatten ∧ (∀ s ∈ l, Cuttable eps s ∧ ∀ a, s = .arc a → T.Isometry ∧ T.a ≠ 0) ∧ p = l.map fun s => ⟨segUpward bh T s, {}⟩ := by
  induction h with
  | nil => intro p hp; cases hp
  | @cons x ls shapes lss h1 _ ih =>
    intro p hp
    have hp' : p ∈ (ls.map fun l => l.map fun s => (⟨segUpward bh x.2 s, {}⟩ : Seg ℝ)) ++ pagePaths bh shapes lss := hp
    rcases List.mem_append.1 hp' with hp | hp
    · obtain ⟨l, hl, rfl⟩ := List.mem_map.1 hp
      exact ⟨x.2, l, by simp [hl], h1.2 l hl, rfl⟩
    · obtain ⟨T, l, i1, i2, i3⟩ := ih p hp
      exact ⟨T, l, by simp only [List.flatten_cons, List.mem_append]; exact .inr i1, i2, i3⟩

theorem segUpward_ends {eps : ℝ} (h : ℝ) (T : Mat ℝ) (s : Shape ℝ) (hs : Cuttable eps s) : (segUpward h T s).p1 = upward h T s.p1 ∧ (segUpward h T s).p2 = upward h T s.p2 := by
  cases s with
  | line l => exact ⟨rfl, rfl⟩
  | arc a => exact ⟨rfl, rfl⟩
  | bez b => exact ⟨rfl, rfl⟩
  | other p q => exact hs.elim

theorem upward_path {eps : ℝ} (heps : 0 < eps) (h : ℝ) (T : Mat ℝ) (l : List (Shape ℝ)) (hl : ∀ s ∈ l, Cuttable eps s ∧ ∀ a, s = .arc a → T.Isometry ∧ T.a ≠ 0) :
    (NoCurves l → SimplePath (l.map fun s => (⟨segUpward h T s, {}⟩ : Seg ℝ))) ∧
    (∀ s ∈ l.map fun s => (⟨segUpward h T s, {}⟩ : Seg ℝ), ∀ a, s.shape = .arc a → a.OnCircle ∧ rotAbout a.center a.angle a.p1 = a.p2) ∧
    (Svg.Connected l → Connected (l.map fun s => (⟨segUpward h T s, {}⟩ : Seg ℝ))) := by
  refine ⟨?_, ?_, ?_⟩
  · intro hno s hs
    obtain ⟨sh, hsh, rfl⟩ := List.mem_map.1 hs
    have := (hl sh hsh).1
    cases sh with
    | line l => exact .inl ⟨_, rfl⟩
    | arc a => exact .inr ⟨_, rfl⟩
    | bez b => exact absurd rfl (hno _ hsh b)
    | other p q => exact this.elim
  · intro s hs a ha
    obtain ⟨sh, hsh, rfl⟩ := List.mem_map.1 hs
    obtain ⟨h1, h2⟩ := hl sh hsh
    cases sh with
    | line l => cases ha
    | arc b =>
      obtain ⟨h3, h4⟩ := h2 b rfl
      have := (C61_isometry_partial eps heps b _ (flip_isometry h3 h) (by rw [flip_a]; exact h4) h1.2.1 h1.2.2.1 h1.2.2.2 h1.1).2
      simp only [flip_apply, flip_det] at this
      have ha' : (⟨upward h T b.p1, upward h T b.p2, b.radius, -T.det * b.angle, upward h T b.center⟩ : Arc ℝ) = a := by
        simpa [segUpward] using ha
      subst ha'
      exact ⟨this.2, this.1⟩
    | bez b => cases ha
    | other p q => exact h1.elim
  · intro hc
    unfold Svg.Connected at hc
    unfold Connected
    rw [List.isChain_map]
    have hmem : l.IsChain fun s t => s ∈ l ∧ t ∈ l ∧ s.p2 = t.p1 := by
      clear hl
      exact hc.imp_of_mem_imp (fun a b ha hb hab => ⟨ha, hb, hab⟩)
    refine hmem.imp ?_
    rintro s t ⟨hs, ht, hst⟩
    show (segUpward h T s).p2 = (segUpward h T t).p1
    rw [(segUpward_ends h T s (hl s hs).1).2, (segUpward_ends h T t (hl t ht).1).1, hst]

/-! ## Properties -/

/-- **C190**, for settings that leave the paths alone: for every document with a size, units and at least one shape to cut, whose shapes consist of lines and arcs (of at most half a turn, such as circles and the arcs of path data; see `C190_circle`), the document opens, a
program is generated, and every program that can be generated is complete and makes, for each pass, exactly the segments of the drawing where they are on the page, measured from its
lower left corner: a rapid move to the start of each path, then a straight feed for each line and a circular feed for each arc, about its centre and in its direction.  This holds up to the
tolerance in the way of C188, and, if the paths are connected and coordinates of successive stops are the same or differ by more than the tolerance, exactly.
Missing: Bezier curves and elliptical arcs (C95, C87), settings that change the paths (C189). -/
theorem C190_document_partial (v : Str) (c : Conv ℝ) (hc : c.Positive) (eps : ℝ) (heps : 0 < eps) (e : Env ℝ) (rounds limit : Nat) (doc : XNode) (ids : List Str)
    (W H bw bh : ℝ) (hsheet : Sheet (realEnv v).num c doc W H bw bh) (nv : XNode) (hnv : namedView doc = some nv)
    (o : TOpts ℝ) (ho : Untouched o) (ht : 0 < o.tolerance) (hd : o.zDepth < 0) (hw : o.aFeedMatch = true → o.toolWidth ≠ 0)
    (u : LenUnit) (hu : u = .inch ∨ u = .mm) (hgu : gcodeUnit o.gcodeUnits (unitsOf nv) = .ok u.name)
    (shapes : List (Svg.At × Mat ℝ)) (hsh : Svg.tcncShapes (realEnv v).num doc limit ids = .ok shapes) (hne : shapes ≠ [])
    (lss : List (List (List (Shape ℝ)))) (hst : List.Forall₂ (fun x ls => Draws (realEnv v).num o.tolerance rounds x.1.node x.2 ls) shapes lss)
    (hnc : ∀ ls ∈ lss, ∀ l ∈ ls, NoCurves l) :
    ∃ d, openDoc (realEnv v).num c eps doc = .ok d ∧ (∃ r, Ran (realEnv v) e rounds limit doc d ids o r) ∧
      ∀ r, Ran (realEnv v) e rounds limit doc d ids o r → ∃ ds s, r = some (ds, s) ∧ s.err = none ∧
        (o.zStep = 0 ∨ |o.zDepth| ≤ |o.zStep| → ds = [o.zDepth]) ∧
        (o.tolerance ≤ |o.zStep| → |o.zStep| ≤ |o.zDepth| → ∀ i (hi : i < ds.length), ds[i] = - (i + 1) * |o.zStep|) ∧
        Journey (WellMade o.tolerance o.tolerance (u.size c.em c.em * (bw / W))) Machine.off (blocksOf s.gen.out) (programLegs ds (pagePaths bh shapes lss)) ∧
        ((∀ ls ∈ lss, ∀ l ∈ ls, Svg.Connected l) →
          ((programLegs ds (pagePaths bh shapes lss)).map fun t => t.stop.p).IsChain (Distinct o.tolerance) →
          Journey (Exactly o.tolerance (u.size c.em c.em * (bw / W))) Machine.off (blocksOf s.gen.out) (programLegs ds (pagePaths bh shapes lss))) := by
  have hp : (⟨c.em, c.em⟩ : Conv ℝ).Positive := ⟨hc.1, hc.1⟩
  obtain ⟨hW, hH⟩ := hsheet.sizes hc
  have hscale : 0 < bw / W := div_pos hsheet.pos hW
  refine ⟨_, openDoc_sheet hc heps hsheet hnv, ?_⟩
  obtain ⟨subs, hsubs, hpo⟩ := all_upward ht bh hst
  have hmem := pagePaths_mem (bh := bh) hst
  have hrun : runPaths (realEnv v).num o.tolerance rounds limit doc ids bh = .ok (some (pagePaths bh shapes lss)) := by
    unfold runPaths
    rw [hsh]
    simp only [bind, Except.bind]
    rw [if_neg (by simpa using hne), hsubs]
    simp only [pure, Except.pure, hpo]
  set paths := pagePaths bh shapes lss with hpaths
  have hsimple : ∀ p ∈ paths, SimplePath p := by
    intro p hp
    obtain ⟨T, l, h1, h2, rfl⟩ := hmem p hp
    obtain ⟨ls, h3, h4⟩ := List.mem_flatten.1 h1
    exact (upward_path ht bh T l h2).1 (hnc ls h3 l h4)
  have hprep : prepare { e with eps := o.tolerance } (initCam o) o.tolerance paths = .ok paths := C82_plain_unchanged _ _ ho.plain _ _ hsimple
  constructor
  · obtain ⟨ds, s, hgen, -⟩ := C104_completes_partial v ⟨unitsOf nv, ⟨c.em, c.em⟩, bw / W⟩ hp hscale.ne' { e with eps := o.tolerance } ht o hw u hu hgu ht hd
      ho.reload paths paths hprep
    exact ⟨_, .cut paths ds s hrun hgen⟩
  · intro r hr
    cases hr with
    | nothing h => rw [hrun] at h; cases h
    | cut paths' ds s h hgen =>
      rw [hrun] at h
      injection h with h
      injection h with h
      subst h
      have herr := generated_no_error ht ho.reload hprep hgen
      have hsame : ∀ u' : LenUnit, (u' = .inch ∨ u' = .mm) → gcodeUnit o.gcodeUnits (unitsOf nv) = .ok u'.name → u' = u := by
        intro u' hu' hgu'
        rw [hgu'] at hgu
        injection hgu with h1
        rcases hu with rfl | rfl <;> rcases hu' with rfl | rfl <;> first | rfl | exact absurd h1 (by decide)
      refine ⟨ds, s, rfl, herr, ?_, ?_, ?_, ?_⟩
      · intro h1
        obtain ⟨g, -, hgen'⟩ := hgen
        exact C104_single_pass _ ht o paths _ s ds hgen' herr hd h1
      · intro h1 h2
        obtain ⟨g, -, hgen'⟩ := hgen
        exact (C104_steps _ o paths _ s ds hgen' hd (lt_of_lt_of_le ht h1) h1 h2).2
      · obtain ⟨u', hu', hgu', hj⟩ := C188_journey_partial v ⟨unitsOf nv, ⟨c.em, c.em⟩, bw / W⟩ hp hscale.ne' _ o ht.le paths paths ds s hgen herr hprep hsimple
        rw [hsame u' hu' hgu'] at hj
        exact hj
      · intro hcon hdist
        obtain ⟨u', hu', hgu', hj⟩ := C188_exact v ⟨unitsOf nv, ⟨c.em, c.em⟩, bw / W⟩ hp hscale.ne' _ ht o ht.le paths paths ds s hgen herr hprep hsimple
          (by
            intro p hp
            obtain ⟨T, l, h1, h2, rfl⟩ := hmem p hp
            obtain ⟨ls, h3, h4⟩ := List.mem_flatten.1 h1
            exact (upward_path ht bh T l h2).2.2 (hcon ls h3 l h4))
          (by
            intro p hp
            obtain ⟨T, l, -, h2, rfl⟩ := hmem p hp
            intro s hs a ha
            exact ((upward_path ht bh T l h2).2.1 s hs a ha).1) hdist
        rw [hsame u' hu' hgu'] at hj
        exact hj

/-- **C190**, circles: a circle of radius at least the tolerance (up to a factor `√2`), with a transform that moves, turns and reflects only and does not exchange the axes, is cut as four quarter turns about the point of the page where its
centre is, all in the same direction, each from the end of the one before, back to the start. -/
theorem C190_circle (env : NumEnv ℝ) (eps : ℝ) (heps : 0 < eps) (rounds : Nat) (n : XNode) (htag : (elemOf n).tag = "circle".toList) (cx cy r : ℝ) (hx : Svg.HasNum env (elemOf n) "cx" cx)
    (hy : Svg.HasNum env (elemOf n) "cy" cy) (hr : Svg.HasNum env (elemOf n) "r" r) (hsize : eps ^ 2 ≤ 2 * r ^ 2) (T : Mat ℝ) (hT : T.Isometry) (hTa : T.a ≠ 0) (height : ℝ) :
    ∃ l, Draws env eps rounds n T [l] ∧ NoCurves l ∧ Svg.Connected l ∧ Svg.ClosedPath l ∧ ∃ arcs : List (Arc ℝ), l.map (segUpward height T) = arcs.map .arc ∧ arcs.length = 4 ∧
      ∀ a ∈ arcs, a.center = upward height T ⟨cx, cy⟩ ∧ a.radius = |r| ∧ a.angle = -T.det * (Real.pi / 2) ∧ a.OnCircle ∧ rotAbout a.center a.angle a.p1 = a.p2 := by
  obtain ⟨arcs, h1, h2, h3, h4, h5⟩ := Svg.C78_circle env eps rounds (elemOf n) htag cx cy r hx hy hr
  have hcut : ∀ s ∈ arcs.map Shape.arc, Cuttable eps s ∧ ∀ a, s = .arc a → T.Isometry ∧ T.a ≠ 0 := by
    intro s hs
    obtain ⟨a, ha, rfl⟩ := List.mem_map.1 hs
    obtain ⟨i1, i2, i3, i4, i5⟩ := h5 a ha
    refine ⟨⟨?_, i4, i5, ?_⟩, fun _ _ => ⟨hT, hTa⟩⟩
    · have hq : sqDist a.p1 a.p2 = 2 * sqDist a.p1 a.center := by
        rw [← i5, i3]
        unfold rotAbout sqDist
        simp only [Real.cos_pi_div_two, Real.sin_pi_div_two]
        ring
      rw [hq, i4.2.1, i2, sq_abs]
      exact hsize
    · rw [i3, abs_of_pos (by positivity)]
      linarith [Real.pi_pos]
  refine ⟨arcs.map .arc, ⟨h1, ?_⟩, ?_, h3, h4, arcs.map fun a => ⟨upward height T a.p1, upward height T a.p2, a.radius, -T.det * a.angle, upward height T a.center⟩, ?_, by simpa using h2, ?_⟩
  · intro l hl
    rw [List.mem_singleton] at hl
    subst hl
    exact hcut
  · intro s hs b hb
    obtain ⟨a, ha, rfl⟩ := List.mem_map.1 hs
    cases hb
  · simp [segUpward, Function.comp_def]
  · intro b hb
    obtain ⟨a, ha, rfl⟩ := List.mem_map.1 hb
    obtain ⟨i1, i2, i3, i4, i5⟩ := h5 a ha
    have hc := (hcut (.arc a) (List.mem_map.2 ⟨a, ha, rfl⟩)).1
    have := (C61_isometry_partial eps heps a _ (flip_isometry hT height) (by rw [flip_a]; exact hTa) hc.2.1 hc.2.2.1 hc.2.2.2 hc.1).2
    simp only [flip_apply, flip_det] at this
    exact ⟨by rw [i1], i2, by rw [i3], this.2, this.1⟩

/-- An arc under a reflection that exchanges the axes gets a wrong centre. -/
theorem wrong_turn (eps : ℝ) (heps : 0 < eps) (a : Arc ℝ) (m : Mat ℝ) (hm : m.Isometry) (hma : m.a = 0) (hdet : m.det = -1) (hon : a.OnCircle)
    (hrot : rotAbout a.center a.angle a.p1 = a.p2) (h0 : 0 < a.angle) (hpi : a.angle < Real.pi) (hd : eps ^ 2 ≤ sqDist a.p1 a.p2) :
    ∃ b, a.transform eps m = .ok b ∧ b.p1 = m.apply a.p1 ∧ b.p2 = m.apply a.p2 ∧ b.center ≠ m.apply a.center := by
  have hpos : 0 < sqDist a.p1 a.p2 := lt_of_lt_of_le (by positivity) hd
  have hiso := hm.dist a.p1 a.p2
  have he : m.e = 0 := by
    rcases hm.kinds with ⟨-, he, -⟩ | ⟨-, he, -⟩ <;> rw [he, hma]
    rw [neg_zero]
  have hon1 : sqDist (m.apply a.center) (m.apply a.p1) = a.radius ^ 2 := by rw [hm.dist, sqDist_comm]; exact hon.2.1
  have hon2 : sqDist (m.apply a.center) (m.apply a.p2) = a.radius ^ 2 := by rw [hm.dist, sqDist_comm]; exact hon.2.2
  have hchord : segLen ⟨m.apply a.p1, m.apply a.p2⟩ / 2 ≤ |a.radius| := by
    have hp : sqDist (m.apply a.p1) (m.apply a.p2) ≤ (2 * |a.radius|) ^ 2 := by
      unfold sqDist at hon1 hon2 ⊢
      rw [mul_pow, sq_abs]
      nlinarith [sq_nonneg ((m.apply a.p1).x + (m.apply a.p2).x - 2 * (m.apply a.center).x), sq_nonneg ((m.apply a.p1).y + (m.apply a.p2).y - 2 * (m.apply a.center).y)]
    have : segLen ⟨m.apply a.p1, m.apply a.p2⟩ ≤ 2 * |a.radius| := by
      unfold segLen
      exact Real.sqrt_le_iff.2 ⟨by positivity, hp⟩
    linarith
  obtain ⟨c, hc, -, -, h3, -, -⟩ := (C59_calc_center eps heps (m.apply a.p1) (m.apply a.p2) a.radius a.angle (by rw [hiso]; exact hd)).1 hchord
  refine ⟨⟨m.apply a.p1, m.apply a.p2, a.radius, a.angle, c⟩, ?_, rfl, rfl, ?_⟩
  · rw [transform_real eps a m (by rw [hma, he]) hpos.ne', hiso, div_self hpos.ne', mul_one, hma, zero_mul, if_neg (lt_irrefl _)]
    unfold Arc.mk'
    rw [hc]
    rfl
  · rintro (rfl : c = m.apply a.center)
    have h := h3 h0
    rw [side_apply, hdet, ← hrot, side_rot] at h
    have hr : 0 < sqDist a.p1 a.center := by
      rcases (sqDist_nonneg a.p1 a.center).lt_or_eq with h | h
      · exact h
      · exfalso
        have hx : a.p1.x - a.center.x = 0 := by unfold sqDist at h; nlinarith [sq_nonneg (a.p1.x - a.center.x), sq_nonneg (a.p1.y - a.center.y)]
        have hy : a.p1.y - a.center.y = 0 := by unfold sqDist at h; nlinarith [sq_nonneg (a.p1.x - a.center.x), sq_nonneg (a.p1.y - a.center.y)]
        have : a.p2 = a.p1 := by
          rw [← hrot]
          apply P.ext_real <;> simp only [rotAbout, hx, hy] <;> linarith
        rw [this] at hpos
        simp [sqDist] at hpos
    have := mul_pos hr (Real.sin_pos_of_pos_of_lt_pi h0 hpi)
    linarith

/-- The part of **C190** that fails: a circle with a transform that turns it by exactly a quarter (in either direction, such as `matrix(0 1 -1 0 0 0)`) and moves it anywhere is cut as four
arcs through the right points, none of which is about the centre of the circle. -/
theorem C190_refuted_turn (env : NumEnv ℝ) (eps : ℝ) (heps : 0 < eps) (rounds : Nat) (n : XNode) (htag : (elemOf n).tag = "circle".toList) (cx cy r : ℝ) (hx : Svg.HasNum env (elemOf n) "cx" cx)
    (hy : Svg.HasNum env (elemOf n) "cy" cy) (hr : Svg.HasNum env (elemOf n) "r" r) (hsize : eps ^ 2 ≤ 2 * r ^ 2) (T : Mat ℝ) (hT : T.Isometry) (hTa : T.a = 0) (hdet : T.det = 1) (height : ℝ) :
    ∃ arcs : List (Arc ℝ), Svg.elementGeometry env eps rounds (elemOf n) (some T) (some (flipY height)) = .ok [.path (arcs.map .arc)] ∧ arcs.length = 4 ∧
      ∀ a ∈ arcs, a.center ≠ upward height T ⟨cx, cy⟩ := by
  obtain ⟨arcs, h1, h2, -, -, h5⟩ := Svg.C78_circle env eps rounds (elemOf n) htag cx cy r hx hy hr
  have hraw : Svg.rawSubs env eps rounds (elemOf n) = .ok [.path (arcs.map .arc)] := by
    unfold Svg.elementGeometry at h1
    cases hr : Svg.rawSubs env eps rounds (elemOf n) with
    | error x => rw [hr] at h1; cases h1
    | ok subs =>
      rw [hr] at h1
      simp only [bind, Except.bind] at h1
      split at h1 <;> exact h1
  have key : ∀ l : List (Arc ℝ), (∀ a ∈ l, a ∈ arcs) → ∃ l' : List (Arc ℝ), Svg.transformShapes eps ((flipY height).compose T) (l.map .arc) = .ok (l'.map .arc) ∧ l'.length = l.length ∧
      ∀ a ∈ l', a.center ≠ upward height T ⟨cx, cy⟩ := by
    intro l
    induction l with
    | nil => exact fun _ => ⟨[], rfl, rfl, fun _ h => by cases h⟩
    | cons a l ih =>
      intro hl
      obtain ⟨l', j1, j2, j3⟩ := ih fun b hb => hl b (by simp [hb])
      obtain ⟨i1, i2, i3, i4, i5⟩ := h5 a (hl a (by simp))
      have hq : eps ^ 2 ≤ sqDist a.p1 a.p2 := by
        have hq : sqDist a.p1 a.p2 = 2 * sqDist a.p1 a.center := by
          rw [← i5, i3]
          unfold rotAbout sqDist
          simp only [Real.cos_pi_div_two, Real.sin_pi_div_two]
          ring
        rw [hq, i4.2.1, i2, sq_abs]
        exact hsize
      obtain ⟨b, k1, -, -, k2⟩ := wrong_turn eps heps a _ (flip_isometry hT height) (by rw [flip_a, hTa]) (by rw [flip_det, hdet]) i4 i5 (by rw [i3]; positivity)
        (by rw [i3]; linarith [Real.pi_pos]) hq
      refine ⟨b :: l', ?_, by simp [j2], ?_⟩
      · rw [List.map_cons, Svg.transformShapes, if_neg (by
          rw [show (Shape.arc a).p1 = a.p1 from rfl, show (Shape.arc a).p2 = a.p2 from rfl, (eq_false_iff eps a.p1 a.p2).2 hq]; simp), j1]
        unfold Svg.shapeTransform
        dsimp only
        rw [k1]
        rfl
      · intro c hc
        rcases List.mem_cons.1 hc with rfl | hc
        · rw [flip_apply, i1] at k2
          exact k2
        · exact j3 c hc
  obtain ⟨l', j1, j2, j3⟩ := key arcs fun _ h => h
  refine ⟨l', ?_, by rw [j2, h2], j3⟩
  unfold Svg.elementGeometry
  rw [hraw]
  simp only [bind, Except.bind, List.isEmpty_cons, Bool.false_eq_true, if_false, Svg.transformSubs, j1]
  rfl

/-! ## Example -/

/-- The circle of the example. -/
def roundC : XNode := el "circle" [at' "cx" "5", at' "cy" "4", at' "r" "2"] []

/-- A sheet of two inches by one, in user units of a tenth of an inch, with one polyline and one circle. -/
def docC : XNode := el "svg" [at' "width" "2in", at' "height" "1in", at' "viewBox" "0 0 20 10"] [
  .elem .other "namedview".toList [at' "units" "in"] [], el "polyline" [at' "points" "1,1 5,1 5,4"] [], roundC]

theorem docC_shapes (v : Str) : Svg.tcncShapes (realEnv v).num docC 3 [] =
    .ok [(⟨el "polyline" [at' "points" "1,1 5,1 5,4"] [], [docC]⟩, Mat.ident), (⟨roundC, [docC]⟩, Mat.ident)] := by
  have h : Svg.tcncShapes (realEnv v).num docC 3 [] =
      .ok [(⟨el "polyline" [at' "points" "1,1 5,1 5,4"] [], [docC]⟩, (Mat.ident : Mat ℝ).compose Mat.ident), (⟨roundC, [docC]⟩, Mat.ident.compose Mat.ident)] := rfl
  rw [h, (C41_compose Mat.ident Mat.ident Mat.ident ⟨0, 0⟩).2.2.1]

theorem docC_sheet (v : Str) : Sheet (realEnv v).num Conv.default docC 180 90 20 10 :=
  ⟨(docD_sheet v).width, (docD_sheet v).height, (docD_sheet v).box, (docD_sheet v).pos, (docD_sheet v).even⟩

theorem ident_isometry : (Mat.ident : Mat ℝ).Isometry ∧ (Mat.ident : Mat ℝ).a ≠ 0 := by
  refine ⟨⟨?_, ?_, ?_⟩, ?_⟩ <;> norm_num [Mat.ident]

theorem straight_draws {env : NumEnv ℝ} {eps : ℝ} {rounds : Nat} {n : XNode} {pts : List (P ℝ)} (h : Straight env eps rounds n pts) (T : Mat ℝ) :
    Draws env eps rounds n T [linesThrough pts] := by
  refine ⟨h.1, ?_⟩
  intro l hl
  rw [List.mem_singleton] at hl
  subst hl
  have key : ∀ pts : List (P ℝ), Apart eps pts → ∀ s ∈ linesThrough pts, Cuttable eps s := by
    intro pts
    induction pts with
    | nil => intro _ s hs; cases hs
    | cons p r ih =>
      cases r with
      | nil => intro _ s hs; cases hs
      | cons q r =>
        intro ha s hs
        rcases List.mem_cons.1 hs with rfl | hs
        · exact (eq_false_iff eps p q).1 ha.1
        · exact ih ha.2 s hs
  intro s hs
  refine ⟨key pts h.2.1 s hs, ?_⟩
  intro a ha
  obtain ⟨b, hb⟩ := lines_shapes pts s hs
  rw [hb] at ha; cases ha

/-- Non-vacuity of `C190_document_partial` and `C190_circle`: the sheet above, cut in inches. -/
example (v : Str) (e : Env ℝ) : ∃ d l, openDoc (realEnv v).num Conv.default (1 / 100000) docC = .ok d ∧ l.length = 4 ∧ ∃ ds s, Ran (realEnv v) e 0 3 docC d [] toptD (some (ds, s)) ∧
    ds = [-1 / 4] ∧
    Journey (WellMade (1 / 1000) (1 / 1000) (90 * (20 / 180))) Machine.off (blocksOf s.gen.out) (programLegs ds
      (pagePaths 10 [(⟨el "polyline" [at' "points" "1,1 5,1 5,4"] [], [docC]⟩, Mat.ident), (⟨roundC, [docC]⟩, Mat.ident)] [[linesThrough [⟨1, 1⟩, ⟨5, 1⟩, ⟨5, 4⟩]], [l]])) := by
  have hnum : ∀ (name : String) (ch : Char) (w : ℝ), Svg.isDig ch = true → (elemOf roundC).get name.toList = some (numD ch).text → w = (Svg.natOf [ch] : ℝ) →
      Svg.HasNum (realEnv v).num (elemOf roundC) name w := by
    intro name ch w h1 h2 h3
    exact .inr ⟨numD ch, numD_valid h1, h2, by rw [numD_value, h3]⟩
  obtain ⟨l, hl, hno, -, -, arcs, ha, hlen, -⟩ := C190_circle (realEnv v).num (1 / 1000) (by norm_num) 0 roundC rfl 5 4 2 (hnum "cx" '5' 5 rfl rfl (by norm_num [natD]))
    (hnum "cy" '4' 4 rfl rfl (by norm_num [natD])) (hnum "r" '2' 2 rfl rfl (by norm_num [natD])) (by norm_num) Mat.ident ident_isometry.1 ident_isometry.2 0
  obtain ⟨d, h1, ⟨r, h2⟩, h3⟩ := C190_document_partial v Conv.default (by constructor <;> norm_num [Conv.default]) (1 / 100000) (by norm_num) e 0 3 docC []
    180 90 20 10 (docC_sheet v) (.elem .other "namedview".toList [at' "units" "in"] []) rfl toptD
    ⟨rfl, rfl, rfl, rfl, rfl, ⟨by decide, by decide⟩, rfl, rfl⟩ (by norm_num [toptD]) (by norm_num [toptD]) (fun h => by cases h) .inch (.inl rfl) rfl _ (docC_shapes v) (by simp)
    [[linesThrough [⟨1, 1⟩, ⟨5, 1⟩, ⟨5, 4⟩]], [l]] (.cons (straight_draws (docD_straight v) _) (.cons hl .nil))
    (by
      intro ls hls l' hl'
      simp only [List.mem_cons, List.not_mem_nil, or_false] at hls
      rcases hls with rfl | rfl <;> rw [List.mem_singleton] at hl' <;> subst hl'
      · intro s hs b hb
        obtain ⟨a, ha⟩ := lines_shapes _ s hs
        rw [ha] at hb; cases hb
      · exact hno)
  obtain ⟨ds, s, rfl, h5, h6, -, h7, -⟩ := h3 r h2
  have hl4 := congrArg List.length ha
  rw [List.length_map, List.length_map, hlen] at hl4
  refine ⟨d, l, h1, hl4, ds, s, h2, h6 (.inl rfl), ?_⟩
  simpa [LenUnit.size, toptD] using h7

/-- Non-vacuity of `C190_refuted_turn`: the quarter turn. -/
example : (⟨0, -1, 0, 1, 0, 0⟩ : Mat ℝ).Isometry ∧ (⟨0, -1, 0, 1, 0, 0⟩ : Mat ℝ).det = 1 := by
  refine ⟨⟨?_, ?_, ?_⟩, ?_⟩ <;> norm_num [Mat.det]

end Verif.Cam
