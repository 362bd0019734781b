import Verif.Cam.Props21
import Verif.Cam.Main
import Verif.Svg.Props15
import Verif.Svg.Props11
import Verif.Svg.Props9

/-!
# C114: from the drawing to the machine
-/

set_option linter.unusedSectionVars false

namespace Verif.Cam
open Verif PyFloat PyTrig Geom GCode
open Verif.Svg (LenUnit Numeral XNode NumEnv Conv Length linesThrough Sub el at')

/-! ## Specification -/

/-- Specification: numbers one after the other, separated by commas and blanks. -/
inductive NumbersText : Str → List Numeral → Prop
  | one (n : Numeral) : n.Valid → NumbersText n.text [n]
  | cons (n : Numeral) (sep s : Str) (l : List Numeral) : n.Valid → sep ≠ [] → (∀ c ∈ sep, c = ',' ∨ c = ' ') → NumbersText s l →
      NumbersText (n.text ++ sep ++ s) (n :: l)

/-- Specification: the stops of cutting through points at height `z`: traverse to the first, cut to the others. -/
def polyStops (z : ℝ) : List (P ℝ) → List (Stop ℝ)
  | [] => []
  | p :: ps => ⟨true, p, none⟩ :: ps.map fun q => ⟨false, q, some z⟩

/-- Specification: where a point of an element with the transform `T` is on the page, measured from its lower left corner: `scale` user units
are one unit, and the page is `height` units high. -/
noncomputable def onPage (scale height : ℝ) (T : Mat ℝ) (p : P ℝ) : P ℝ := ⟨(p.transform T).x / scale, height - (p.transform T).y / scale⟩

/-! ## Lemmas -/

theorem Tour.map {P Q : Machine ℝ → Stop ℝ → Prop} (f : Stop ℝ → Stop ℝ) (hf : ∀ t, (f t).rapid = t.rapid) (hPQ : ∀ m t, P m t → Q m (f t))
    {m : Machine ℝ} {bs : List (Block ℝ)} {ts : List (Stop ℝ)} (h : Tour P m bs ts) : Tour Q m bs (ts.map f) := by
  induction h with
  | done m idle h => exact .done m idle h
  | stop m idle move rest t ts h1 h2 h3 h4 _ ih => exact .stop m idle move rest (f t) _ h1 h2 (by rw [hf]; exact h3) (hPQ _ _ h4) ih

theorem numeral_chars {n : Numeral} (h : n.Valid) : ∀ c ∈ n.text, (c = ',' || Svg.isReWs c) = false := by
  intro c hc
  have h1 := (Svg.numeral_clean h c hc).1
  simp only [Bool.or_eq_false_iff] at h1
  rw [Bool.or_eq_false_iff]
  refine ⟨h1.2, ?_⟩
  have h2 := h1.1
  simp only [Css.isWs, Svg.isReWs, List.mem_cons, List.not_mem_nil, or_false, decide_eq_false_iff_not, not_or] at h2 ⊢
  exact ⟨h2.1, h2.2.1, h2.2.2.1, h2.2.2.2.1, h2.2.2.2.2.1, h2.2.2.2.2.2.1⟩

theorem splitRuns_run (sep : Char → Bool) (w : Str) : ∀ (b : Bool) (cur rest : Str), w ≠ [] → (∀ c ∈ w, sep c = false) →
    splitRuns sep b cur (w ++ rest) = splitRuns sep false (cur ++ w) rest := by
  induction w with
  | nil => intro _ _ _ h; exact absurd rfl h
  | cons c w ih =>
    intro b cur rest _ hw
    rw [List.cons_append, splitRuns, if_neg (by rw [hw c (by simp)]; simp)]
    cases w with
    | nil => simp
    | cons d w =>
      rw [ih false (cur ++ [c]) rest (by simp) fun x hx => hw x (by simp [hx])]
      simp

theorem splitRuns_sep (sep : Char → Bool) (w : Str) : ∀ (cur rest : Str), (∀ c ∈ w, sep c = true) →
    splitRuns sep true cur (w ++ rest) = splitRuns sep true cur rest := by
  induction w with
  | nil => intro _ _ _; rfl
  | cons c w ih =>
    intro cur rest hw
    rw [List.cons_append, splitRuns, if_pos (hw c (by simp)), if_pos rfl]
    exact ih cur rest fun x hx => hw x (by simp [hx])

theorem text_ne {n : Numeral} (h : n.Valid) : n.text ≠ [] := by
  intro he
  have h1 : n.ip = [] := by
    have := congrArg List.length he
    simp only [Numeral.text, List.length_append, List.length_nil] at this
    exact List.length_eq_zero_iff.1 (by omega)
  have h2 : n.frac = none := by
    cases hf : n.frac with
    | none => rfl
    | some ds =>
      have := congrArg List.length he
      simp only [Numeral.text, List.length_append, List.length_nil, hf, Svg.fracText, List.length_cons] at this
      omega
  exact h.some_digit (by rw [h1, h2]; rfl)

theorem splitRuns_text {s : Str} {l : List Numeral} (h : NumbersText s l) (b : Bool) :
    splitRuns (fun c => c = ',' || Svg.isReWs c) b [] s = l.map Numeral.text := by
  induction h generalizing b with
  | one n hv =>
    have := splitRuns_run (fun c => decide (c = ',') || Svg.isReWs c) n.text b [] [] (text_ne hv) (numeral_chars hv)
    rw [List.append_nil, List.nil_append] at this
    rw [this]; rfl
  | cons n sep s l hv hne hsep _ ih =>
    have hs : ∀ c ∈ sep, (fun c => decide (c = ',') || Svg.isReWs c) c = true := by
      intro c hc
      rcases hsep c hc with rfl | rfl <;> rfl
    rw [List.append_assoc, splitRuns_run _ _ _ _ _ (text_ne hv) (numeral_chars hv), List.nil_append]
    cases sep with
    | nil => exact absurd rfl hne
    | cons c sep =>
      rw [List.cons_append, splitRuns, if_pos (hs c (by simp)), if_neg (by simp), splitRuns_sep _ _ _ _ fun x hx => hs x (by simp [hx]), ih true]
      rfl

theorem numbersText_valid {s : Str} {l : List Numeral} (h : NumbersText s l) : ∀ n ∈ l, n.Valid := by
  induction h with
  | one n hv => intro m hm; rw [List.mem_singleton] at hm; exact hm ▸ hv
  | cons n sep s l hv _ _ _ ih =>
    intro m hm
    rcases List.mem_cons.1 hm with rfl | hm
    · exact hv
    · exact ih m hm

theorem floats_text (env : NumEnv ℝ) (l : List Numeral) (h : ∀ n ∈ l, n.Valid) : floats env (l.map Numeral.text) = .ok (l.map fun n => n.value env) := by
  induction l with
  | nil => rfl
  | cons n l ih =>
    rw [List.map_cons, floats, Svg.float_text env n (h n (by simp)), ih fun m hm => h m (by simp [hm])]
    rfl

theorem viewBoxOf_text (env : NumEnv ℝ) (doc : XNode) {t : Str} {l : List Numeral} (hg : doc.get "viewBox".toList = some t) (h : NumbersText t l) :
    viewBoxOf env doc = .ok (some (l.map fun n => n.value env)) := by
  unfold viewBoxOf
  rw [hg]
  simp only [splitRuns_text h, floats_text env l (numbersText_valid h), bind, Except.bind]
  rfl

/-- The lines through transformed points. -/
theorem lines_map (f : P ℝ → P ℝ) (pts : List (P ℝ)) : ∀ l' : List (Shape ℝ),
    List.Forall₂ (fun (s t : Shape ℝ) => ∀ a, s = .line a → t = .line ⟨f a.p1, f a.p2⟩) (linesThrough pts) l' → l' = linesThrough (pts.map f) := by
  induction pts with
  | nil => intro l' h; cases h; rfl
  | cons p r ih =>
    cases r with
    | nil => intro l' h; cases h; rfl
    | cons q r =>
      intro l' h
      rw [linesThrough] at h
      cases h with
      | cons h1 h2 =>
        rw [h1 _ rfl, ih _ h2]
        rfl

theorem lines_shapes (pts : List (P ℝ)) : ∀ s ∈ linesThrough pts, ∃ a, s = .line a := by
  induction pts with
  | nil => intro s h; cases h
  | cons p r ih =>
    cases r with
    | nil => intro s h; cases h
    | cons q r =>
      intro s h
      rcases List.mem_cons.1 h with rfl | h
      · exact ⟨_, rfl⟩
      · exact ih s h

/-- Specification: no two consecutive points are the same to within `eps`. -/
def Apart (eps : ℝ) : List (P ℝ) → Prop
  | p :: q :: r => p.eq eps q = false ∧ Apart eps (q :: r)
  | _ => True

theorem lines_filter (eps : ℝ) (pts : List (P ℝ)) (h : Apart eps pts) : (linesThrough pts).filter (fun s => !(s.p1.eq eps s.p2)) = linesThrough pts := by
  induction pts with
  | nil => rfl
  | cons p r ih =>
    cases r with
    | nil => rfl
    | cons q r =>
      rw [linesThrough, List.filter_cons_of_pos, ih h.2]
      show (!(p.eq eps q)) = true
      rw [h.1]; rfl

/-- Specification: the element draws exactly the straight lines through the points `pts` (at least two, consecutive ones apart), before its transforms are applied. -/
def Straight (env : NumEnv ℝ) (eps : ℝ) (rounds : Nat) (n : XNode) (pts : List (P ℝ)) : Prop :=
  Svg.elementGeometry env eps rounds (elemOf n) none none = .ok [.path (linesThrough pts)] ∧ Apart eps pts ∧ 2 ≤ pts.length

theorem flip_point (h : ℝ) (p : P ℝ) : p.transform (flipY h) = ⟨p.x, h - p.y⟩ := by
  apply P.ext_real
  · simp [P.transform, flipY, Mat.scaleTranslate, Mat.apply]
  · simp [P.transform, flipY, Mat.scaleTranslate, Mat.apply]; ring

theorem straight_geometry {env : NumEnv ℝ} {eps : ℝ} {rounds : Nat} {n : XNode} {pts : List (P ℝ)} (h : Straight env eps rounds n pts) (T q : Mat ℝ) :
    Svg.elementGeometry env eps rounds (elemOf n) (some T) (some q) = .ok [.path (linesThrough (pts.map fun p => (p.transform T).transform q))] := by
  obtain ⟨h1, h2, h3⟩ := h
  have hne : linesThrough pts ≠ [] := by
    match pts, h3 with
    | p :: q :: r, _ => simp [linesThrough]
  obtain ⟨l', h4, h5⟩ := Svg.C78_transform env eps rounds (elemOf n) T (some q) (linesThrough pts) hne h1 fun s hs => .inl (lines_shapes pts s hs)
  rw [lines_filter eps pts h2] at h5
  rw [h4, lines_map (fun p => (p.transform T).transform q) pts l' (h5.imp fun s t hst => hst.1)]

theorem straight_all {env : NumEnv ℝ} {eps : ℝ} {rounds : Nat} (q : Mat ℝ) {shapes : List (Svg.At × Mat ℝ)} {ptss : List (List (P ℝ))}
    (h : List.Forall₂ (fun x pts => Straight env eps rounds x.1.node pts) shapes ptss) :
    Svg.svgToGeometry env eps rounds (some q) (shapes.map fun x => (elemOf x.1.node, some x.2)) =
      .ok ((shapes.zip ptss).map fun x => .path (linesThrough (x.2.map fun p => (p.transform x.1.2).transform q))) := by
  induction h with
  | nil => rfl
  | cons h1 _ ih =>
    rw [List.map_cons, Svg.svgToGeometry, straight_geometry h1, ih]
    rfl

/-- A polygonal path without hints. -/
def polyPath (pts : List (P ℝ)) : Path ℝ := (linesThrough pts).map fun s => ⟨s, {}⟩

theorem polyPath_simple (pts : List (P ℝ)) : SimplePath (polyPath pts) := by
  intro s hs
  obtain ⟨sh, hsh, rfl⟩ := List.mem_map.1 hs
  obtain ⟨a, rfl⟩ := lines_shapes pts sh hsh
  exact .inl ⟨a, rfl⟩

theorem polyPath_stops (d : ℝ) (pts : List (P ℝ)) (h : 2 ≤ pts.length) : stopsOf d (polyPath pts) = polyStops d pts := by
  have key : ∀ (p : P ℝ) (r : List (P ℝ)), ((polyPath (p :: r)).map fun seg => (⟨false, seg.p2, some (seg.hints.z.getD d)⟩ : Stop ℝ)) =
      r.map fun q => ⟨false, q, some d⟩ := by
    intro p r
    induction r generalizing p with
    | nil => rfl
    | cons q r ih =>
      have := ih q
      unfold polyPath at this ⊢
      rw [linesThrough, List.map_cons, List.map_cons, List.map_cons, this]
      rfl
  match pts, h with
  | p :: q :: r, _ =>
    have := key p (q :: r)
    show _ = (⟨true, p, none⟩ : Stop ℝ) :: (q :: r).map fun q => (⟨false, q, some d⟩ : Stop ℝ)
    rw [← this]
    rfl

/-- Specification: the document `doc` is a sheet of the size `W` by `H` (in pixels, at 90 to the inch), drawn in user units of which `bw` make its width and `bh`
its height: the width and height attributes are lengths, and the `viewBox`, if there is one, is `0 0 bw bh`; both directions have the same scale. -/
structure Sheet (env : NumEnv ℝ) (c : Conv ℝ) (doc : XNode) (W H bw bh : ℝ) : Prop where
  width : ∃ w : Length, w.Valid ∧ doc.get "width".toList = some w.text ∧ 0 < w.num.value env ∧ W = w.num.value env * (w.unit.getD .px).size c.em c.em
  height : ∃ h : Length, h.Valid ∧ doc.get "height".toList = some h.text ∧ 0 < h.num.value env ∧ H = h.num.value env * (h.unit.getD .px).size c.em c.em
  box : (doc.get "viewBox".toList = none ∧ bw = W ∧ bh = H) ∨
    ∃ (t : Str) (z1 z2 b1 b2 : Numeral), doc.get "viewBox".toList = some t ∧ NumbersText t [z1, z2, b1, b2] ∧ z1.value env = 0 ∧ z2.value env = 0 ∧
      b1.value env = bw ∧ b2.value env = bh
  pos : 0 < bw
  even : bw / W = bh / H

theorem Sheet.sizes {env : NumEnv ℝ} {c : Conv ℝ} (hc : c.Positive) {doc : XNode} {W H bw bh : ℝ} (h : Sheet env c doc W H bw bh) : 0 < W ∧ 0 < H := by
  have hp : (⟨c.em, c.em⟩ : Conv ℝ).Positive := ⟨hc.1, hc.1⟩
  obtain ⟨w, _, _, h1, h2⟩ := h.width
  obtain ⟨w', _, _, h1', h2'⟩ := h.height
  exact ⟨h2 ▸ mul_pos h1 (Svg.size_pos hp _), h2' ▸ mul_pos h1' (Svg.size_pos hp _)⟩

/-- The unit of the document (`inkscape/inksvg.py:80-88`). -/
def unitsOf (nv : XNode) : Str := (nv.get "inkscape:document-units".toList).getD ((nv.get "units".toList).getD "px".toList)

theorem view_sheet {env : NumEnv ℝ} {c : Conv ℝ} (hc : c.Positive) {eps : ℝ} (heps : 0 < eps) {doc : XNode} {W H bw bh : ℝ} (h : Sheet env c doc W H bw bh)
    : ∃ (w w' : Length) (vb : Option (List ℝ)), doc.get "width".toList = some w.text ∧ doc.get "height".toList = some w'.text ∧ viewBoxOf env doc = .ok vb ∧
      Svg.viewOf env (⟨c.em, c.em⟩ : Conv ℝ) eps w.text w'.text vb = .ok ⟨bw, bh, bw / W⟩ := by
  have hp : (⟨c.em, c.em⟩ : Conv ℝ).Positive := ⟨hc.1, hc.1⟩
  obtain ⟨hW, hH⟩ := h.sizes hc
  have heven := h.even
  obtain ⟨w, hw1, hw2, hw3, hw4⟩ := h.width
  obtain ⟨w', hh1, hh2, hh3, hh4⟩ := h.height
  have e1 : ∀ {l : Length}, l.Valid → Svg.unitConvert env (⟨c.em, c.em⟩ : Conv ℝ) l.text "px".toList "px".toList =
      .ok (l.num.value env * (l.unit.getD .px).size c.em c.em) := by
    intro l hl
    have := Svg.C75_convert env hp hl .px .px
    rw [show "px".toList = LenUnit.px.name from rfl, this]
    simp [LenUnit.size]
  have hview : ∃ vb, viewBoxOf env doc = .ok vb ∧ Svg.viewOf env (⟨c.em, c.em⟩ : Conv ℝ) eps w.text w'.text vb = .ok ⟨bw, bh, bw / W⟩ := by
    have key : ∀ vb : Option (List ℝ), vb.getD [0, 0, W, H] = [0, 0, bw, bh] →
        Svg.viewOf env (⟨c.em, c.em⟩ : Conv ℝ) eps w.text w'.text vb = .ok ⟨bw, bh, bw / W⟩ := by
      intro vb hvb
      unfold Svg.viewOf
      rw [e1 hw1, e1 hh1, ← hw4, ← hh4]
      simp only [bind, Except.bind]
      rw [show (vb.getD [(zero : ℝ), zero, W, H]) = [0, 0, bw, bh] from by simpa using hvb]
      dsimp only
      rw [Svg.isZeroF_false hW.ne', Svg.isZeroF_false hH.ne']
      simp only [Bool.or_self, Bool.false_eq_true, if_false, real_sub, real_div, real_abs, real_lt, sub_zero, decide_eq_true_eq, heven, sub_self, abs_zero,
        heps, if_true]
      rfl
    rcases h.box with ⟨hn, hb1, hb2⟩ | ⟨t, z1, z2, b1, b2, ht, hnt, hz1, hz2, hb1, hb2⟩
    · exact ⟨none, by unfold viewBoxOf; rw [hn], key _ (by rw [hb1, hb2]; rfl)⟩
    · refine ⟨_, viewBoxOf_text env doc ht hnt, key _ ?_⟩
      simp only [List.map_cons, List.map_nil, hz1, hz2, hb1, hb2, Option.getD_some]
  obtain ⟨vb, hv1, hv2⟩ := hview
  exact ⟨w, w', vb, hw2, hh2, hv1, hv2⟩

theorem openDoc_sheet {env : NumEnv ℝ} {c : Conv ℝ} (hc : c.Positive) {eps : ℝ} (heps : 0 < eps) {doc : XNode} {W H bw bh : ℝ} (h : Sheet env c doc W H bw bh)
    {nv : XNode} (hnv : namedView doc = some nv) : openDoc env c eps doc = .ok ⟨⟨unitsOf nv, ⟨c.em, c.em⟩, bw / W⟩, bw, bh⟩ := by
  obtain ⟨w, w', vb, hw, hh, hv1, hv2⟩ := view_sheet hc heps h
  have hca : c.afterInit none none = (⟨c.em, c.em⟩ : Conv ℝ) := rfl
  unfold openDoc
  rw [hca, hw, hh]
  simp only [bind, Except.bind, hv1, hv2, hnv]
  rfl

/-- Specification: the settings change nothing in the paths: no sorting, no offsets, fillets, smoothing, splitting at cusps, overshoot, soft landing or brush reload. -/
structure Untouched (o : TOpts ℝ) : Prop where
  sort : o.sortMethod = "none".toList
  fillet : o.toolFillet = false
  offset : o.toolOffset = false
  split : o.splitCusps = false
  smooth : o.smoothFillet = false
  overshoot : o.overshootMode ≠ "auto".toList ∧ o.overshootMode ≠ "manual".toList
  landing : o.softLanding = false
  reload : o.reloadEnable = false

theorem Untouched.plain {o : TOpts ℝ} (h : Untouched o) : Plain (initCam o) where
  sort := by simp only [initCam, h.sort, if_true]
  fillet := by simp only [initCam, h.fillet, Bool.false_and]
  split := h.split
  offset := by simp only [initCam, h.offset, Bool.false_and]
  smooth := h.smooth
  brush := by
    intro b hb
    have hb' : b = initBrush o := by
      have : (initCam o).brush = some (initBrush o) := rfl
      rw [this] at hb
      injection hb with hb
      exact hb.symm
    subst hb'
    refine ⟨?_, h.landing⟩
    simp only [initBrush, h.overshoot.1, h.overshoot.2, or_self, decide_false]

theorem generated_no_error {v : Str} {doc : DocInfo ℝ} {e : Env ℝ} {o : TOpts ℝ} (ht : 0 < o.tolerance) (hr : o.reloadEnable = false) {l paths : List (Path ℝ)}
    (hp : prepare e (initCam o) o.tolerance l = .ok paths) {ds : List ℝ} {s : Cam ℝ} (h : Generated (realEnv v) doc e o l ds s) : s.err = none := by
  obtain ⟨g, hg', hgen⟩ := h
  obtain ⟨af, u, k, n, -, -, -, -, -, -, -, -, -, -, -, -, -, -, htol, -, -⟩ := initGcode_fields hg'
  refine C81_no_exception ?_ e (initCam o) l paths (Cam.init g) s ds hgen rfl ?_ ?_ ?_ ?_
  · intro a b
    simp only [real_hypot, neg_sq]
  · show g.last 'F' = none
    rw [(initGcode_fresh hg').last]
  · show 0 < g.cfg.tol
    rw [htol]; exact ht
  · intro b hb
    have hb' : b = initBrush o := by
      have : (initCam o).brush = some (initBrush o) := rfl
      rw [this] at hb
      injection hb with hb
      exact hb.symm
    rw [hb']
    exact hr
  · show prepare e (initCam o) g.cfg.tol l = .ok paths
    rw [htol]; exact hp

/-- Specification: the stops in machine units: for each pass, the points of each element in turn, where they are on the page, at the depth of the pass. -/
noncomputable def pageStops (scale height : ℝ) (shapes : List (Svg.At × Mat ℝ)) (ptss : List (List (P ℝ))) (ds : List ℝ) : List (Stop ℝ) :=
  ds.flatMap fun d => (shapes.zip ptss).flatMap fun x => polyStops (d / scale) (x.2.map (onPage scale height x.1.2))

theorem scaled_stops {scale : ℝ} (hs : 0 < scale) (bh : ℝ) (shapes : List (Svg.At × Mat ℝ)) (ptss : List (List (P ℝ))) (ds : List ℝ)
    (h2 : ∀ pts ∈ ptss, 2 ≤ pts.length) :
    (programStops ds ((shapes.zip ptss).map fun x => polyPath (x.2.map fun p => (p.transform x.1.2).transform (flipY bh)))).map
      (fun t => (⟨t.rapid, ⟨t.p.x / scale, t.p.y / scale⟩, t.z.map (· / scale)⟩ : Stop ℝ)) = pageStops scale (bh / scale) shapes ptss ds := by
  unfold programStops pageStops
  rw [List.map_flatMap]
  congr 1
  funext d
  rw [List.map_flatMap, List.flatMap_map]
  apply List.flatMap_congr
  intro x hx
  have hx2 := h2 x.2 (List.of_mem_zip hx).2
  rw [polyPath_stops _ _ (by rw [List.length_map]; exact hx2)]
  have hpt : ∀ p : P ℝ, (⟨((p.transform x.1.2).transform (flipY bh)).x / scale, ((p.transform x.1.2).transform (flipY bh)).y / scale⟩ : P ℝ) =
      onPage scale (bh / scale) x.1.2 p := by
    intro p
    rw [flip_point]
    unfold onPage
    congr 1
    show (bh - _) / scale = _
    rw [sub_div]
  cases hx2' : x.2 with
  | nil => rfl
  | cons p r =>
    simp only [List.map_cons, polyStops, List.map_map]
    rw [hpt p]
    congr 1
    apply List.map_congr_left
    intro q _
    simp only [Function.comp, Option.map_some]
    rw [hpt q]

/-- **C114**, from the drawing to the machine, for drawings of straight lines and settings that leave the paths alone (curves are cut as the arcs of C95, and the
settings that change paths are those of C27 and C36 to C40): for every document with a size, units and at least one shape to cut, the
document opens, a program is generated, and every program that can be generated is complete and moves in X and Y exactly to the corners of the shapes, shape by
shape in the order of C111, once for each pass at its depth (a single pass at the final depth, or passes one step apart), measured from the lower left corner of the page in units of the G code, to within the tolerance. -/
theorem C114_document_partial (v : Str) (c : Conv ℝ) (hc : c.Positive) (eps : ℝ) (heps : 0 < eps) (e : Env ℝ) (rounds limit : Nat) (doc : XNode) (ids : List Str)
    (W H bw bh : ℝ) (hsheet : Sheet (realEnv v).num c doc W H bw bh) (nv : XNode) (hnv : namedView doc = some nv)
    (o : TOpts ℝ) (ho : Untouched o) (ht : 0 < o.tolerance) (hd : o.zDepth < 0) (hw : o.aFeedMatch = true → o.toolWidth ≠ 0)
    (u : LenUnit) (hu : u = .inch ∨ u = .mm) (hgu : gcodeUnit o.gcodeUnits (unitsOf nv) = .ok u.name)
    (shapes : List (Svg.At × Mat ℝ)) (hsh : Svg.tcncShapes (realEnv v).num doc limit ids = .ok shapes) (hne : shapes ≠ [])
    (ptss : List (List (P ℝ))) (hst : List.Forall₂ (fun x pts => Straight (realEnv v).num o.tolerance rounds x.1.node pts) shapes ptss) :
    ∃ d, openDoc (realEnv v).num c eps doc = .ok d ∧ (∃ r, Ran (realEnv v) e rounds limit doc d ids o r) ∧
      ∀ r, Ran (realEnv v) e rounds limit doc d ids o r → ∃ ds s, r = some (ds, s) ∧ s.err = none ∧
        (o.zStep = 0 ∨ |o.zDepth| ≤ |o.zStep| → ds = [o.zDepth]) ∧
        (o.tolerance ≤ |o.zStep| → |o.zStep| ≤ |o.zDepth| → ∀ i (hi : i < ds.length), ds[i] = - (i + 1) * |o.zStep|) ∧
        Tour (AtStop (o.tolerance / (u.size c.em c.em * (bw / W))) 1) Machine.off (blocksOf s.gen.out)
          (pageStops (u.size c.em c.em * (bw / W)) (H / u.size c.em c.em) shapes ptss ds) := by
  have hp : (⟨c.em, c.em⟩ : Conv ℝ).Positive := ⟨hc.1, hc.1⟩
  obtain ⟨hW, hH⟩ := hsheet.sizes hc
  have hscale : 0 < bw / W := div_pos hsheet.pos hW
  have husz : 0 < u.size c.em c.em := Svg.size_pos hp u
  have hsc : 0 < u.size c.em c.em * (bw / W) := mul_pos husz hscale
  have hHs : H / u.size c.em c.em = bh / (u.size c.em c.em * (bw / W)) := by
    rw [hsheet.even]
    have hbh : bh ≠ 0 := by
      intro h0
      have := hsheet.even
      rw [h0, zero_div] at this
      exact hscale.ne' this
    field_simp
  refine ⟨_, openDoc_sheet hc heps hsheet hnv, ?_⟩
  set paths : List (Path ℝ) := (shapes.zip ptss).map fun x => polyPath (x.2.map fun p => (p.transform x.1.2).transform (flipY bh)) with hpaths
  have hlen : ∀ pts ∈ ptss, 2 ≤ pts.length := by
    clear hsh hne hpaths paths
    induction hst with
    | nil => intro _ h; cases h
    | cons h1 _ ih =>
      intro pts hpts
      rcases List.mem_cons.1 hpts with rfl | hpts
      · exact h1.2.2
      · exact ih pts hpts
  have hsimple : ∀ p ∈ paths, SimplePath p := by
    intro p hp
    obtain ⟨x, _, rfl⟩ := List.mem_map.1 hp
    exact polyPath_simple _
  have hrun : runPaths (realEnv v).num o.tolerance rounds limit doc ids bh = .ok (some paths) := by
    unfold runPaths
    rw [hsh]
    simp only [bind, Except.bind]
    rw [if_neg (by simpa using hne), straight_all _ hst]
    simp only [pure, Except.pure, List.map_map]
    rfl
  have hprep : prepare { e with eps := o.tolerance } (initCam o) o.tolerance paths = .ok paths := C82_plain_unchanged _ _ ho.plain _ _ hsimple
  constructor
  · obtain ⟨ds, s, hgen, -⟩ := C104_completes_partial v ⟨unitsOf nv, ⟨c.em, c.em⟩, bw / W⟩ hp hscale.ne' { e with eps := o.tolerance } ht o hw u hu hgu ht hd
      ho.reload paths paths hprep
    exact ⟨_, .cut paths ds s hrun hgen⟩
  · intro r hr
    cases hr with
    | nothing h => rw [hrun] at h; cases h
    | cut paths' ds s h hgen =>
      rw [hrun] at h
      injection h with h
      injection h with h
      subst h
      have herr := generated_no_error ht ho.reload hprep hgen
      refine ⟨ds, s, rfl, herr, ?_, ?_, ?_⟩
      · intro h1
        obtain ⟨g, -, hgen'⟩ := hgen
        exact C104_single_pass _ ht o paths _ s ds hgen' herr hd h1
      · intro h1 h2
        obtain ⟨g, -, hgen'⟩ := hgen
        exact (C104_steps _ o paths _ s ds hgen' hd (lt_of_lt_of_le ht h1) h1 h2).2
      obtain ⟨u', hu', hgu', htour⟩ := C114_tour v ⟨unitsOf nv, ⟨c.em, c.em⟩, bw / W⟩ hp hscale.ne' _ o ht.le paths paths ds s hgen herr hprep hsimple
      have huu : u' = u := by
        rw [show gcodeUnit o.gcodeUnits (unitsOf nv) = .ok u'.name from hgu'] at hgu
        injection hgu with h1
        rcases hu with rfl | rfl <;> rcases hu' with rfl | rfl <;> first | rfl | exact absurd h1 (by decide)
      subst huu
      rw [hHs, ← scaled_stops hsc bh shapes ptss ds hlen]
      refine Tour.map (fun t : Stop ℝ => (⟨t.rapid, ⟨t.p.x / (u'.size c.em c.em * (bw / W)), t.p.y / (u'.size c.em c.em * (bw / W))⟩,
        t.z.map (· / (u'.size c.em c.em * (bw / W)))⟩ : Stop ℝ)) (fun _ => rfl) ?_ htour
      rintro m t ⟨x, y, hx, hy, h1, h2, h3⟩
      have hdiv : ∀ a b : ℝ, |a * (u'.size c.em c.em * (bw / W)) - b| ≤ o.tolerance →
          |a * 1 - b / (u'.size c.em c.em * (bw / W))| ≤ o.tolerance / (u'.size c.em c.em * (bw / W)) := by
        intro a b hab
        rw [mul_one, show a - b / (u'.size c.em c.em * (bw / W)) = (a * (u'.size c.em c.em * (bw / W)) - b) / (u'.size c.em c.em * (bw / W)) by
          rw [sub_div, mul_div_cancel_right₀ _ hsc.ne'], abs_div, abs_of_pos hsc]
        exact div_le_div_of_nonneg_right hab hsc.le
      refine ⟨x, y, hx, hy, hdiv _ _ h1, hdiv _ _ h2, ?_⟩
      intro z hz
      obtain ⟨z', hz', rfl⟩ := Option.map_eq_some_iff.1 hz
      obtain ⟨w, hw1, hw2⟩ := h3 z' hz'
      exact ⟨w, hw1, hdiv _ _ hw2⟩

/-- The part of **C114** that fails: a drawing that was not saved by Inkscape, without its `namedview` element, cannot be opened, and neither can
one without the attributes `width` and `height` (which SVG allows, meaning 100%): `AttributeError` and `TypeError`, whatever else is in it. -/
theorem C114_refuted_open (env : NumEnv ℝ) {c : Conv ℝ} (hc : c.Positive) {eps : ℝ} (heps : 0 < eps) (doc : XNode) :
    (∀ W H bw bh, Sheet env c doc W H bw bh → namedView doc = none → openDoc env c eps doc = .error .attributeError) ∧
    (doc.get "width".toList = none ∨ doc.get "height".toList = none → openDoc env c eps doc = .error .typeError) := by
  constructor
  · intro W H bw bh h hn
    obtain ⟨w, w', vb, hw, hh, hv1, hv2⟩ := view_sheet hc heps h
    have hca : c.afterInit none none = (⟨c.em, c.em⟩ : Conv ℝ) := rfl
    unfold openDoc
    rw [hca, hw, hh]
    simp only [bind, Except.bind, hv1, hv2, hn]
  · intro h
    unfold openDoc
    rcases h with h | h
    · rw [h]
    · cases hw : doc.get "width".toList with
      | none => rfl
      | some w => rw [h]

/-! ## Example -/

/-- A sheet of two inches by one, in user units of a tenth of an inch, with one polyline. -/
def docD : XNode := el "svg" [at' "width" "2in", at' "height" "1in", at' "viewBox" "0 0 20 10"] [
  .elem .other "namedview".toList [at' "units" "in"] [], el "polyline" [at' "points" "1,1 5,1 5,4"] []]

/-- A number of one digit. -/
def numD (c : Char) : Numeral := ⟨none, [c], none, none⟩

theorem numD_valid {c : Char} (h : Svg.isDig c = true) : (numD c).Valid := by
  refine ⟨?_, ?_, ?_, ?_⟩
  · simp [numD, h]
  · intro ds h; cases h
  · simp [numD]
  · intro u s ds h; cases h

theorem docD_shapes (v : Str) : ∃ T, Svg.tcncShapes (realEnv v).num docD 3 [] = .ok [(⟨el "polyline" [at' "points" "1,1 5,1 5,4"] [], [docD]⟩, T)] := by
  refine ⟨_, rfl⟩

/-- Settings over the real numbers: a quarter deep in one pass. -/
noncomputable def toptD : TOpts ℝ where
  xyFeed := 10
  zFeed := 10
  aFeed := 60
  zSafe := 1
  toolWidth := 1
  trailOffset := 1 / 4
  gcodeUnits := "doc".toList
  tolerance := 1 / 1000
  blendTol := 0
  spindleSpeed := 1000
  spindleWaitOn := 1
  toolWait := 0
  zDepth := -1 / 4
  zStep := 0
  sortMethod := "none".toList
  biarcTol := 1 / 100
  lineFlatness := 1 / 100
  smoothRadius := 0
  landingStrip := 0
  overshootDist := 0

theorem numD_value (v : Str) (c : Char) : (numD c).value (realEnv v).num = (Svg.natOf [c] : ℝ) := by
  simp [Numeral.value, numD, realEnv, Numeral.negative, Numeral.exponent, Svg.expValue]

theorem natD : Svg.natOf ['0'] = 0 ∧ Svg.natOf ['1'] = 1 ∧ Svg.natOf ['2'] = 2 ∧ Svg.natOf ['4'] = 4 ∧ Svg.natOf ['5'] = 5 ∧ Svg.natOf ['2', '0'] = 20 ∧
    Svg.natOf ['1', '0'] = 10 := ⟨rfl, rfl, rfl, rfl, rfl, rfl, rfl⟩

theorem docD_sheet (v : Str) : Sheet (realEnv v).num Conv.default docD 180 90 20 10 where
  width := by
    refine ⟨⟨numD '2', [], some .inch⟩, ⟨numD_valid rfl, by simp⟩, rfl, ?_, ?_⟩
    · rw [numD_value]; norm_num [natD]
    · rw [numD_value]; norm_num [natD, LenUnit.size]
  height := by
    refine ⟨⟨numD '1', [], some .inch⟩, ⟨numD_valid rfl, by simp⟩, rfl, ?_, ?_⟩
    · rw [numD_value]; norm_num [natD]
    · rw [numD_value]; norm_num [natD, LenUnit.size]
  box := by
    refine .inr ⟨_, numD '0', numD '0', ⟨none, ['2', '0'], none, none⟩, ⟨none, ['1', '0'], none, none⟩, rfl, ?_, ?_, ?_, ?_, ?_⟩
    · refine .cons (numD '0') [' '] _ _ (numD_valid rfl) (by simp) (by simp) (.cons (numD '0') [' '] _ _ (numD_valid rfl) (by simp) (by simp)
        (.cons ⟨none, ['2', '0'], none, none⟩ [' '] _ _ ?_ (by simp) (by simp) (.one ⟨none, ['1', '0'], none, none⟩ ?_)))
      · exact ⟨rfl, fun _ h => (by cases h), by simp, fun _ _ _ h => (by cases h)⟩
      · exact ⟨rfl, fun _ h => (by cases h), by simp, fun _ _ _ h => (by cases h)⟩
    · rw [numD_value]; norm_num [natD]
    · rw [numD_value]; norm_num [natD]
    · simp [Numeral.value, realEnv, Numeral.negative, Numeral.exponent, Svg.expValue, natD]
    · simp [Numeral.value, realEnv, Numeral.negative, Numeral.exponent, Svg.expValue, natD]
  pos := by norm_num
  even := by norm_num

theorem docD_straight (v : Str) : Straight (realEnv v).num (1 / 1000) 0 (el "polyline" [at' "points" "1,1 5,1 5,4"] []) [⟨1, 1⟩, ⟨5, 1⟩, ⟨5, 4⟩] := by
  refine ⟨?_, ?_, by simp⟩
  · obtain ⟨segs, h1, h2, -⟩ := Svg.C78_polyline (realEnv v).num (1 / 1000) 0 (elemOf (el "polyline" [at' "points" "1,1 5,1 5,4"] [])) rfl _
      [(numD '1', numD '1'), (numD '5', numD '1'), (numD '5', numD '4')] rfl
      (.point (numD '1') (numD '1') ' ' _ _ (numD_valid rfl) (numD_valid rfl) (by simp [Svg.Blank]) (.point (numD '5') (numD '1') ' ' _ _ (numD_valid rfl) (numD_valid rfl) (by simp [Svg.Blank])
        (.last (numD '5') (numD '4') (numD_valid rfl) (numD_valid rfl)))) (by simp)
    rw [h1, h2]
    simp only [List.map_cons, List.map_nil, Svg.ptValue, numD_value]
    norm_num [natD]
  · simp only [Apart, and_true]
    constructor <;> · rw [← Bool.not_eq_true, eq_iff]; norm_num [sqDist]

/-- Non-vacuity of `C114_document_partial`: the sheet above, cut in inches. -/
example (v : Str) (e : Env ℝ) : ∃ d, openDoc (realEnv v).num Conv.default (1 / 100000) docD = .ok d ∧ ∃ ds s T, Ran (realEnv v) e 0 3 docD d [] toptD (some (ds, s)) ∧
    ds = [-1 / 4] ∧
    Tour (AtStop ((1 / 1000) / (90 * (20 / 180))) 1) Machine.off (blocksOf s.gen.out) ([-1 / 4].flatMap fun d =>
      polyStops (d / (90 * (20 / 180))) ([⟨1, 1⟩, ⟨5, 1⟩, ⟨5, 4⟩].map (onPage (90 * (20 / 180)) (90 / 90) T))) := by
  obtain ⟨T, hT⟩ := docD_shapes v
  obtain ⟨d, h1, ⟨r, h2⟩, h3⟩ := C114_document_partial v Conv.default (by constructor <;> norm_num [Conv.default]) (1 / 100000) (by norm_num) e 0 3 docD []
    180 90 20 10 (docD_sheet v) (.elem .other "namedview".toList [at' "units" "in"] []) rfl toptD
    ⟨rfl, rfl, rfl, rfl, rfl, ⟨by decide, by decide⟩, rfl, rfl⟩ (by norm_num [toptD]) (by norm_num [toptD]) (fun h => by cases h) .inch (.inl rfl) rfl _ hT (by simp)
    [[⟨1, 1⟩, ⟨5, 1⟩, ⟨5, 4⟩]] (.cons (docD_straight v) .nil)
  obtain ⟨ds, s, rfl, h5, h6, -, h7⟩ := h3 r h2
  have hds : ds = [-1 / 4] := h6 (.inl rfl)
  subst hds
  refine ⟨d, h1, _, s, T, h2, rfl, ?_⟩
  simpa [pageStops, LenUnit.size, toptD] using h7

end Verif.Cam
