import Verif.Svg.Props8
import Verif.Svg.Props10
import Verif.Geom.Props6

/-!
# C78: SVG shapes become geometry
-/

set_option linter.unusedSectionVars false

namespace Verif.Svg
open Verif PyFloat PyTrig Geom Css

/-! ## Specification -/

/-- Specification: the numeric attribute of an element: the number that is written, or zero if there is no such attribute. -/
def HasNum (env : NumEnv ℝ) (e : Elem) (name : String) (v : ℝ) : Prop :=
  (e.get name.toList = none ∧ v = 0) ∨ ∃ n : Numeral, n.Valid ∧ e.get name.toList = some n.text ∧ v = n.value env

/-- Specification: the last segment ends where the first one starts. -/
def ClosedPath (l : List (Shape ℝ)) : Prop := ∃ a z, l.head? = some a ∧ l.getLast? = some z ∧ z.p2 = a.p1

/-- Specification: a text of points: the numbers of a point with a comma between them, and blanks between points. -/
inductive PointsText : Str → List (Numeral × Numeral) → Prop
  | nil : PointsText [] []
  | blank (c : Char) (s : Str) (l) : Blank c → PointsText s l → PointsText (c :: s) l
  | last (x y : Numeral) : x.Valid → y.Valid → PointsText (x.text ++ ',' :: y.text) [(x, y)]
  | point (x y : Numeral) (c : Char) (s : Str) (l) : x.Valid → y.Valid → Blank c → PointsText s l →
      PointsText ((x.text ++ ',' :: y.text) ++ c :: s) ((x, y) :: l)

/-- Specification: the point that is written. -/
noncomputable def ptValue (env : NumEnv ℝ) (p : Numeral × Numeral) : P ℝ := ⟨p.1.value env, p.2.value env⟩

/-- Specification: the lines from each point to the next. -/
def linesThrough : List (P ℝ) → List (Shape ℝ)
  | p :: q :: r => .line ⟨p, q⟩ :: linesThrough (q :: r)
  | _ => []

/-! ## Lemmas -/

theorem float_text (env : NumEnv ℝ) (n : Numeral) (h : n.Valid) : env.float n.text = .ok (n.value env) := by
  rw [NumEnv.float, readDec_text n h]; rfl

theorem strip_text (n : Numeral) (h : n.Valid) : strip n.text = n.text := by
  unfold strip
  have hc : ∀ c ∈ n.text, isWs c = false := fun c hc => by
    have := (numeral_clean h c hc).1
    rw [Bool.or_eq_false_iff] at this
    exact this.1
  exact stripBy_id (fun c h => hc c (List.mem_of_mem_head? h)) (fun c h => hc c (List.mem_of_getLast? h))

theorem num_ok {env : NumEnv ℝ} {e : Elem} {name : String} {v : ℝ} (h : HasNum env e name v) : e.num env name = .ok v := by
  unfold Elem.num
  rcases h with ⟨h, rfl⟩ | ⟨n, hn, h, rfl⟩
  · rw [h]; simp
  · rw [h]; simp only []; rw [strip_text n hn, float_text env n hn]

theorem wordsFrom_run (w : Str) : ∀ (cur rest : Str), (∀ c ∈ w, isWs c = false) → wordsFrom cur (w ++ rest) = wordsFrom (cur ++ w) rest := by
  induction w with
  | nil => intro cur rest _; simp
  | cons c w ih =>
    intro cur rest h
    rw [List.cons_append, wordsFrom, if_neg (by rw [h c (by simp)]; simp), ih _ _ fun d hd => h d (by simp [hd])]
    simp

theorem blank_ws {c : Char} (h : Blank c) : isWs c = true := by
  rcases h with rfl | rfl | rfl | rfl <;> rfl

theorem point_clean {x y : Numeral} (hx : x.Valid) (hy : y.Valid) : ∀ c ∈ x.text ++ ',' :: y.text, isWs c = false := by
  intro c hc
  rcases List.mem_append.1 hc with h | h
  · exact (Bool.or_eq_false_iff.1 (numeral_clean hx c h).1).1
  · rcases List.mem_cons.1 h with rfl | h
    · rfl
    · exact (Bool.or_eq_false_iff.1 (numeral_clean hy c h).1).1

theorem words_text {s : Str} {l} (h : PointsText s l) : wordsFrom [] s = l.map fun p => p.1.text ++ ',' :: p.2.text := by
  induction h with
  | nil => rfl
  | blank c s l hc _ ih => rw [wordsFrom, if_pos (blank_ws hc)]; exact ih
  | last x y hx hy =>
    have := wordsFrom_run (x.text ++ ',' :: y.text) [] [] (point_clean hx hy)
    rw [List.append_nil, List.nil_append] at this
    rw [this, wordsFrom, if_neg (by simp)]; rfl
  | point x y c s l hx hy hc _ ih =>
    rw [wordsFrom_run _ _ _ (point_clean hx hy), List.nil_append, wordsFrom, if_pos (blank_ws hc), if_neg (by simp), ih]; rfl

theorem valid_text {s : Str} {l} (h : PointsText s l) : ∀ p ∈ l, p.1.Valid ∧ p.2.Valid := by
  induction h with
  | nil => simp
  | blank _ _ _ _ _ ih => exact ih
  | last x y hx hy => simp [hx, hy]
  | point x y c s l hx hy _ _ ih =>
    intro p hp
    rcases List.mem_cons.1 hp with rfl | hp
    · exact ⟨hx, hy⟩
    · exact ih p hp

theorem pointOf_text (env : NumEnv ℝ) (p : Numeral × Numeral) (hx : p.1.Valid) (hy : p.2.Valid) :
    pointOf env (p.1.text ++ ',' :: p.2.text) = .ok (ptValue env p) := by
  have hn : ∀ n : Numeral, n.Valid → ',' ∉ n.text := fun n h hc => by
    have := (numeral_clean h ',' hc).1
    simp at this
  unfold pointOf
  rw [splitC_append (hn _ hx), splitC_none (hn _ hy)]
  simp only [float_text env _ hx, float_text env _ hy]
  rfl

theorem polyLoop_text (env : NumEnv ℝ) (l : List (Numeral × Numeral)) : ∀ prev, (∀ p ∈ l, p.1.Valid ∧ p.2.Valid) →
    ∃ ls, polyLoop env prev (l.map fun p => p.1.text ++ ',' :: p.2.text) = .ok ls ∧ ls.map .line = linesThrough (prev :: l.map (ptValue env)) := by
  induction l with
  | nil => intro prev _; exact ⟨[], rfl, rfl⟩
  | cons p l ih =>
    intro prev h
    obtain ⟨ls, h1, h2⟩ := ih (ptValue env p) fun q hq => h q (by simp [hq])
    refine ⟨⟨prev, ptValue env p⟩ :: ls, ?_, ?_⟩
    · simp only [List.map_cons, polyLoop, pointOf_text env p (h p (by simp)).1 (h p (by simp)).2, h1, bind, Except.bind]; rfl
    · simp [linesThrough, h2]

theorem linesThrough_connected (l : List (P ℝ)) : Connected (linesThrough l) ∧ (linesThrough l).length = l.length - 1 ∧
    (∀ s ∈ (linesThrough l).head?, ∀ p ∈ l.head?, s.p1 = p) ∧ (∀ s ∈ (linesThrough l).getLast?, ∀ p ∈ l.getLast?, s.p2 = p) := by
  induction l with
  | nil => simp [linesThrough, Connected]
  | cons p l ih =>
    cases l with
    | nil => simp [linesThrough, Connected]
    | cons q r =>
      obtain ⟨h1, h2, h3, h4⟩ := ih
      refine ⟨?_, ?_, ?_, ?_⟩
      · unfold Connected at h1 ⊢
        simp only [linesThrough]
        cases hl : linesThrough (q :: r) with
        | nil => simp
        | cons t ts =>
          rw [List.isChain_cons_cons]
          rw [hl] at h1 h3
          exact ⟨(h3 t rfl q rfl).symm, h1⟩
      · simp only [linesThrough, List.length_cons] at h2 ⊢; omega
      · intro s hs t ht
        simp [linesThrough] at hs ht
        subst hs ht
        rfl
      · intro s hs t ht
        rw [List.getLast?_cons_cons] at ht
        simp only [linesThrough] at hs
        cases hl : linesThrough (q :: r) with
        | nil =>
          rw [hl] at hs h2
          cases r with
          | nil => simp at hs ht; subst hs ht; rfl
          | cons => simp at h2
        | cons t ts =>
          rw [hl, List.getLast?_cons_cons] at hs
          rw [hl] at h4
          exact h4 s hs _ ht

theorem linesThrough_last (l : List (P ℝ)) : ∀ s, (linesThrough l).getLast? = some s → l.dropLast.getLast? = some s.p1 := by
  induction l with
  | nil => intro s h; cases h
  | cons p l ih =>
    intro s h
    cases l with
    | nil => cases h
    | cons q r =>
      simp only [linesThrough] at h
      rw [List.dropLast_cons_of_ne_nil (by simp)]
      cases r with
      | nil => simp [linesThrough] at h; subst h; rfl
      | cons t r =>
        rw [linesThrough, List.getLast?_cons_cons] at h
        have := ih s (by rw [linesThrough]; exact h)
        rw [List.dropLast_cons_of_ne_nil (by simp)] at this ⊢
        rw [List.getLast?_cons_cons]
        exact this

theorem convertPolyline_text (env : NumEnv ℝ) (e : Elem) (s : Str) (l : List (Numeral × Numeral)) (hg : e.get "points".toList = some s)
    (ht : PointsText s l) (hne : l ≠ []) :
    ∃ ls, convertPolyline env e = .ok ls ∧ ls.map .line = linesThrough (l.map (ptValue env)) := by
  cases l with
  | nil => exact absurd rfl hne
  | cons p l =>
    have hv := valid_text ht
    obtain ⟨ls, h1, h2⟩ := polyLoop_text env l (ptValue env p) fun q hq => hv q (by simp [hq])
    refine ⟨ls, ?_, h2⟩
    unfold convertPolyline
    rw [hg]
    simp only [Option.getD, words_text ht, List.map_cons, pointOf_text env p (hv p (by simp)).1 (hv p (by simp)).2, bind, Except.bind, h1]

/-! ## Properties -/

/-- **C78**, `rect`: the four sides, each starting where the one before ends, back to the start. -/
theorem C78_rect (env : NumEnv ℝ) (eps : ℝ) (rounds : Nat) (e : Elem) (ht : e.tag = "rect".toList) (x y w h : ℝ)
    (hx : HasNum env e "x" x) (hy : HasNum env e "y" y) (hw : HasNum env e "width" w) (hh : HasNum env e "height" h) :
    ∃ l, elementGeometry env eps rounds e none none = .ok [.path l] ∧ Connected l ∧ ClosedPath l ∧
      l = linesThrough [⟨x, y⟩, ⟨x, y + h⟩, ⟨x + w, y + h⟩, ⟨x + w, y⟩, ⟨x, y⟩] := by
  refine ⟨_, ?_, (linesThrough_connected _).1, ⟨_, _, rfl, rfl, rfl⟩, rfl⟩
  unfold elementGeometry rawSubs
  rw [if_neg (by rw [ht]; decide), if_neg (by rw [ht]; decide), if_neg (by rw [ht]; decide), if_pos ht]
  unfold convertRect
  rw [num_ok hx, num_ok hy, num_ok hw, num_ok hh]
  rfl

/-- **C78**, `circle`: four quarter turns about the centre, counter-clockwise in the coordinates of the document, with the radius of the circle, each starting where the one before ends,
back to the start. -/
theorem C78_circle (env : NumEnv ℝ) (eps : ℝ) (rounds : Nat) (e : Elem) (ht : e.tag = "circle".toList) (cx cy r : ℝ)
    (hx : HasNum env e "cx" cx) (hy : HasNum env e "cy" cy) (hr : HasNum env e "r" r) :
    ∃ arcs : List (Arc ℝ), elementGeometry env eps rounds e none none = .ok [.path (arcs.map .arc)] ∧ arcs.length = 4 ∧
      Connected (arcs.map .arc) ∧ ClosedPath (arcs.map .arc) ∧
      ∀ a ∈ arcs, a.center = ⟨cx, cy⟩ ∧ a.radius = |r| ∧ a.angle = Real.pi / 2 ∧ a.OnCircle ∧ rotAbout a.center a.angle a.p1 = a.p2 := by
  refine ⟨[⟨⟨cx + |r|, cy⟩, ⟨cx, cy + |r|⟩, |r|, Real.pi / 2, ⟨cx, cy⟩⟩, ⟨⟨cx, cy + |r|⟩, ⟨cx - |r|, cy⟩, |r|, Real.pi / 2, ⟨cx, cy⟩⟩,
    ⟨⟨cx - |r|, cy⟩, ⟨cx, cy - |r|⟩, |r|, Real.pi / 2, ⟨cx, cy⟩⟩, ⟨⟨cx, cy - |r|⟩, ⟨cx + |r|, cy⟩, |r|, Real.pi / 2, ⟨cx, cy⟩⟩],
    ?_, rfl, ?_, ⟨_, _, rfl, rfl, rfl⟩, ?_⟩
  · unfold elementGeometry rawSubs
    rw [if_neg (by rw [ht]; decide), if_neg (by rw [ht]; decide), if_neg (by rw [ht]; decide), if_neg (by rw [ht]; decide), if_pos ht]
    unfold convertCircle
    rw [num_ok hx, num_ok hy, num_ok hr]
    simp [bind, Except.bind, pure, Except.pure]
  · unfold Connected
    simp [Shape.p1, Shape.p2]
  · intro a ha
    simp only [List.mem_cons, List.not_mem_nil, or_false] at ha
    rcases ha with rfl | rfl | rfl | rfl <;>
      refine ⟨rfl, rfl, rfl, ⟨abs_nonneg _, ?_, ?_⟩, ?_⟩ <;>
      first
      | (simp only [sqDist]; ring1)
      | (apply P.ext_real <;> simp [rotAbout] <;> ring)

/-- **C78**, `polyline`: for every `points` text of at least two points (with commas inside and blanks between points), the lines from each point to the next. -/
theorem C78_polyline (env : NumEnv ℝ) (eps : ℝ) (rounds : Nat) (e : Elem) (ht : e.tag = "polyline".toList) (s : Str) (l : List (Numeral × Numeral))
    (hs : e.get "points".toList = some s) (hp : PointsText s l) (h2 : 2 ≤ l.length) :
    ∃ segs, elementGeometry env eps rounds e none none = .ok [.path segs] ∧ segs = linesThrough (l.map (ptValue env)) ∧ Connected segs := by
  obtain ⟨ls, h1, h3⟩ := convertPolyline_text env e s l hs hp (by rintro rfl; simp at h2)
  refine ⟨_, ?_, rfl, (linesThrough_connected _).1⟩
  have hne : (ls.map Shape.line).isEmpty = false := by
    rw [h3]
    match l, h2 with
    | p :: q :: r, _ => rfl
  unfold elementGeometry rawSubs
  rw [if_neg (by rw [ht]; decide), if_neg (by rw [ht]; decide), if_neg (by rw [ht]; decide), if_neg (by rw [ht]; decide),
    if_neg (by rw [ht]; decide), if_pos ht, h1]
  simp only [bind, Except.bind, hne, Bool.false_eq_true, if_false, List.isEmpty_cons, ← h3]
  rfl

theorem follows_on {e : Ell ℝ} {a ts bs} (h : FollowsAll e a ts bs) : ∀ b ∈ bs, ∃ s t, b.p1 = e.pointAt s ∧ b.p2 = e.pointAt t := by
  induction h with
  | nil => simp
  | @cons a c ts bz bs hf _ ih =>
    intro b hb
    rcases List.mem_cons.1 hb with rfl | hb
    · exact ⟨a, c, hf.1, hf.2.1⟩
    · exact ih b hb

/-- **C78**, `ellipse`: a closed chain of curves that begin and end on the ellipse (whose axes are equal or differ by at least the tolerance). -/
theorem C78_ellipse (env : NumEnv ℝ) (eps : ℝ) (heps : 0 < eps) (e : Elem) (ht : e.tag = "ellipse".toList) (cx cy rx ry : ℝ)
    (hx : HasNum env e "cx" cx) (hy : HasNum env e "cy" cy) (hrx : HasNum env e "rx" rx) (hry : HasNum env e "ry" ry)
    (h0 : rx ≠ 0) (h1 : ry ≠ 0) (hd : |rx| = |ry| ∨ eps ≤ |(|rx| - |ry|)|) :
    ∃ n, ∀ rounds, n ≤ rounds → ∃ bs : List (Bez ℝ), elementGeometry env eps rounds e none none = .ok [.path (bs.map .bez)] ∧
      Connected (bs.map .bez) ∧ ClosedPath (bs.map .bez) ∧
      ∀ b ∈ bs, (((b.p1.x - cx) / rx) ^ 2 + ((b.p1.y - cy) / ry) ^ 2 = 1) ∧ (((b.p2.x - cx) / rx) ^ 2 + ((b.p2.y - cy) / ry) ^ 2 = 1) := by
  set el := Ell.mk' eps ⟨cx, cy⟩ rx (some ry) 0 with hel
  obtain ⟨n, hn⟩ := C90_bezier_ellipse_partial el 0 (Real.pi * 2) (by linarith [Real.pi_pos])
  refine ⟨n, fun rounds hr => ?_⟩
  obtain ⟨bs, ts, g1, -, g3, -, g5, g6, g7, g8⟩ := hn rounds hr
  have hne : bs ≠ [] := g8 (by linarith [Real.pi_pos])
  obtain ⟨-, c2, c3, c4⟩ := C89_construct eps ⟨cx, cy⟩ rx ry 0 heps
  rw [← hel] at c2 c3 c4
  have hx0 : 0 < |rx| := abs_pos.2 h0
  have hy0 : 0 < |ry| := abs_pos.2 h1
  have hon := (C89_point_at el (by rw [c2]; exact lt_max_of_lt_left hx0) (by rw [c3]; exact lt_min hx0 hy0)).1
  have hlev : ∀ t, (((el.pointAt t).x - cx) / rx) ^ 2 + (((el.pointAt t).y - cy) / ry) ^ 2 = 1 := by
    intro t
    have h := hon t
    unfold Ell.On at h
    rw [c4 hd] at h
    simp only [Ell.level, Ell.u, Ell.v, Real.cos_zero, Real.sin_zero] at h
    rw [← h]
    simp only [div_pow, sq_abs]
    ring
  refine ⟨bs, ?_, ?_, ?_, ?_⟩
  · unfold elementGeometry rawSubs
    rw [if_neg (by rw [ht]; decide), if_neg (by rw [ht]; decide), if_pos ht]
    unfold convertEllipse
    rw [num_ok hx, num_ok hy, num_ok hrx, num_ok hry]
    have : (bs.map Shape.bez).isEmpty = false := by
      cases bs with
      | nil => exact absurd rfl hne
      | cons => rfl
    simp only [bind, Except.bind, pure, Except.pure, real_zero, real_pi, real_mul, real_ofInt, ← hel]
    push_cast
    rw [g1]
    simp only [this, Bool.false_eq_true, if_false, List.isEmpty_cons]
  · unfold Connected
    rw [List.isChain_map]
    exact g5
  · cases bs with
    | nil => exact absurd rfl hne
    | cons b r =>
      obtain ⟨z, hz⟩ : ∃ z, (b :: r).getLast? = some z := ⟨_, List.getLast?_eq_some_getLast (by simp)⟩
      refine ⟨.bez b, .bez z, rfl, by rw [List.getLast?_map, hz]; rfl, ?_⟩
      show z.p2 = b.p1
      rw [g7 z hz, g6 b rfl]
      apply P.ext_real <;> simp [Ell.pointAt, P.add, mul_comm Real.pi 2]
  · intro b hb
    obtain ⟨s, t, h1, h2⟩ := follows_on g3 b hb
    rw [h1, h2]
    exact ⟨hlev s, hlev t⟩

/-- **C78**, transforms: what is returned for a transform (of the element, and of its parent around it) is the untransformed geometry, each segment transformed on its own
and without the segments whose ends are nearly the same; lines and curves are transformed point by point. -/
theorem C78_transform (env : NumEnv ℝ) (eps : ℝ) (rounds : Nat) (e : Elem) (m : Mat ℝ) (parent : Option (Mat ℝ)) (l : List (Shape ℝ)) (hl : l ≠ [])
    (h : elementGeometry env eps rounds e none none = .ok [.path l]) (hs : ∀ s ∈ l, (∃ a, s = .line a) ∨ ∃ b, s = .bez b) :
    ∃ l', elementGeometry env eps rounds e (some m) parent = .ok [.path l'] ∧
      List.Forall₂ (fun (s t : Shape ℝ) =>
        let f := fun p : P ℝ => match parent with | none => p.transform m | some q => (p.transform m).transform q
        (∀ a, s = .line a → t = .line ⟨f a.p1, f a.p2⟩) ∧ (∀ b, s = .bez b → t = .bez ⟨f b.p1, f b.c1, f b.c2, f b.p2⟩))
        (l.filter fun s => !(s.p1.eq eps s.p2)) l' := by
  have hraw : rawSubs env eps rounds e = .ok [.path l] := by
    unfold elementGeometry at h
    cases hr : rawSubs env eps rounds e with
    | error x => rw [hr] at h; cases h
    | ok subs =>
      rw [hr] at h
      simp only [bind, Except.bind] at h
      split at h
      · rename_i h0
        simp only [pure, Except.pure] at h
        exact h
      · exact h
  have key : ∀ (M : Mat ℝ) (f : P ℝ → P ℝ), (∀ p, p.transform M = f p) → ∀ l : List (Shape ℝ), (∀ s ∈ l, (∃ a, s = .line a) ∨ ∃ b, s = .bez b) →
      ∃ l', transformShapes eps M l = .ok l' ∧ List.Forall₂ (fun (s t : Shape ℝ) =>
        (∀ a, s = .line a → t = .line ⟨f a.p1, f a.p2⟩) ∧ (∀ b, s = .bez b → t = .bez ⟨f b.p1, f b.c1, f b.c2, f b.p2⟩))
        (l.filter fun s => !(s.p1.eq eps s.p2)) l' := by
    intro M f hM l hl
    induction l with
    | nil => exact ⟨[], rfl, .nil⟩
    | cons s r ih =>
      obtain ⟨l', i1, i2⟩ := ih fun t ht => hl t (by simp [ht])
      by_cases hz : s.p1.eq eps s.p2 = true
      · refine ⟨l', ?_, ?_⟩
        · rw [transformShapes, if_pos hz, i1]
        · rw [List.filter_cons, hz]; exact i2
      · have hz' : s.p1.eq eps s.p2 = false := by simpa using hz
        rw [List.filter_cons, hz']
        simp only [Bool.not_false, if_true]
        rw [transformShapes, if_neg hz, i1]
        rcases hl s (by simp) with ⟨a, rfl⟩ | ⟨b, rfl⟩
        · refine ⟨.line ⟨f a.p1, f a.p2⟩ :: l', ?_, .cons ⟨fun a' h => ?_, fun b h => (by cases h)⟩ i2⟩
          · simp only [shapeTransform, bind, Except.bind, Line.transform, hM]; rfl
          · cases h; rfl
        · refine ⟨.bez ⟨f b.p1, f b.c1, f b.c2, f b.p2⟩ :: l', ?_, .cons ⟨fun a h => (by cases h), fun b' h => ?_⟩ i2⟩
          · simp only [shapeTransform, bind, Except.bind, Bez.transform, hM]; rfl
          · cases h; rfl
  unfold elementGeometry
  rw [hraw]
  cases parent with
  | none =>
    obtain ⟨l', g1, g2⟩ := key m (fun p => p.transform m) (fun p => rfl) l hs
    refine ⟨l', ?_, g2⟩
    simp only [bind, Except.bind, List.isEmpty_cons, Bool.false_eq_true, if_false, transformSubs, g1]
    rfl
  | some q =>
    obtain ⟨l', g1, g2⟩ := key (q.compose m) (fun p => (p.transform m).transform q) (fun p => (C41_compose q m m p).1) l hs
    refine ⟨l', ?_, g2⟩
    simp only [bind, Except.bind, List.isEmpty_cons, Bool.false_eq_true, if_false, transformSubs, g1]
    rfl

/-- **C78** as stated is false of the code: every line element with a transform raises `AttributeError`; every polygon of three or more points whose last side is not its first side raises
`TypeError` (instead of being closed); a polyline without points raises `IndexError`; and a shape with a parent transform but no transform of its own raises `TypeError`. -/
theorem C78_refuted (env : NumEnv ℝ) (eps : ℝ) (rounds : Nat) (e : Elem) :
    (∀ x1 y1 x2 y2 m, e.tag = "line".toList → HasNum env e "x1" x1 → HasNum env e "y1" y1 → HasNum env e "x2" x2 → HasNum env e "y2" y2 →
      elementGeometry env eps rounds e (some m) none = .error .attributeError) ∧
    (∀ s l p q r, e.tag = "polygon".toList → e.get "points".toList = some s → PointsText s (p :: q :: r :: l) →
      (∀ z ∈ (p :: q :: r :: l).dropLast.getLast?, (ptValue env z).eq eps (ptValue env p) = false) →
      elementGeometry env eps rounds e none none = .error .typeError) ∧
    (e.tag = "polyline".toList → e.get "points".toList = some [] → elementGeometry env eps rounds e none none = .error .indexError) ∧
    (∀ x y w h q, e.tag = "rect".toList → HasNum env e "x" x → HasNum env e "y" y → HasNum env e "width" w → HasNum env e "height" h →
      elementGeometry env eps rounds e none (some q) = .error .typeError) := by
  refine ⟨?_, ?_, ?_, ?_⟩
  · intro x1 y1 x2 y2 m ht h1 h2 h3 h4
    unfold elementGeometry rawSubs
    rw [if_neg (by rw [ht]; decide), if_pos ht]
    unfold convertLine
    rw [num_ok h1, num_ok h2, num_ok h3, num_ok h4]
    rfl
  · intro s l p q r ht hg hp hz
    obtain ⟨ls, h1, h3⟩ := convertPolyline_text env e s _ hg hp (by simp)
    have herr : convertPolygon env eps e = .error .typeError := by
      unfold convertPolygon
      rw [h1]
      simp only [bind, Except.bind]
      -- the first line, and the start of the last line
      match ls, h3 with
      | [], h3 => simp [linesThrough] at h3
      | a :: ls', h3 =>
        simp only [List.map_cons, linesThrough, List.cons.injEq, Shape.line.injEq] at h3
        obtain ⟨rfl, h4⟩ := h3
        obtain ⟨z, hzl⟩ : ∃ z, ((⟨ptValue env p, ptValue env q⟩ : Line ℝ) :: ls').getLast? = some z := ⟨_, List.getLast?_eq_some_getLast (by simp)⟩
        have hlen : 1 < ((⟨ptValue env p, ptValue env q⟩ : Line ℝ) :: ls').length := by
          have := congrArg List.length h4
          simp only [List.length_map, List.length_cons] at this ⊢
          omega
        have hzp : z.p1.eq eps (ptValue env p) = false := by
          have h5 : (linesThrough ((p :: q :: r :: l).map (ptValue env))).getLast? = some (.line z) := by
            simp only [List.map_cons, linesThrough]
            rw [← h4, ← List.map_cons (f := Shape.line), List.getLast?_map, hzl]; rfl
          have h6 := linesThrough_last _ _ h5
          rw [← List.map_dropLast, List.getLast?_map, Option.map_eq_some_iff] at h6
          obtain ⟨t, ht1, ht2⟩ := h6
          have := hz t ht1
          rw [ht2] at this
          exact this
        simp only [List.head?_cons, hzl, hzp, Bool.false_and, Bool.not_false, Bool.and_true, decide_eq_true_eq, hlen, if_true]
    unfold elementGeometry rawSubs
    rw [if_neg (by rw [ht]; decide), if_neg (by rw [ht]; decide), if_neg (by rw [ht]; decide), if_neg (by rw [ht]; decide),
      if_neg (by rw [ht]; decide), if_neg (by rw [ht]; decide), if_pos ht, herr]
    rfl
  · intro ht hg
    unfold elementGeometry rawSubs
    rw [if_neg (by rw [ht]; decide), if_neg (by rw [ht]; decide), if_neg (by rw [ht]; decide), if_neg (by rw [ht]; decide),
      if_neg (by rw [ht]; decide), if_pos ht]
    unfold convertPolyline
    rw [hg]
    rfl
  · intro x y w h q ht hx hy hw hh
    unfold elementGeometry rawSubs
    rw [if_neg (by rw [ht]; decide), if_neg (by rw [ht]; decide), if_neg (by rw [ht]; decide), if_pos ht]
    unfold convertRect
    rw [num_ok hx, num_ok hy, num_ok hw, num_ok hh]
    rfl

/-- Non-vacuity: a `rect` with three attributes, and a text of three points, such as a polygon has. -/
example : ∃ (env : NumEnv ℝ) (e : Elem), e.tag = "rect".toList ∧ HasNum env e "x" 0 ∧ HasNum env e "y" (-2) ∧ HasNum env e "width" 3 ∧ HasNum env e "height" 4 := by
  refine ⟨⟨fun neg n _ => if neg then -(n : ℝ) else (n : ℝ)⟩,
    ⟨"rect".toList, [("width".toList, "3".toList), ("y".toList, "-2".toList), ("height".toList, "4".toList)]⟩, rfl, ?_, ?_, ?_, ?_⟩
  · exact .inl ⟨by decide, rfl⟩
  · exact .inr ⟨⟨some true, ['2'], none, none⟩, ⟨rfl, by simp, by simp, by simp⟩, by decide, by simp [Numeral.value, Numeral.negative, natOf]⟩
  · exact .inr ⟨⟨none, ['3'], none, none⟩, ⟨rfl, by simp, by simp, by simp⟩, by decide, by simp [Numeral.value, Numeral.negative, natOf]⟩
  · exact .inr ⟨⟨none, ['4'], none, none⟩, ⟨rfl, by simp, by simp, by simp⟩, by decide, by simp [Numeral.value, Numeral.negative, natOf]⟩

/-- Non-vacuity: a text of three points, the last side of which is not the first. -/
example : ∃ (env : NumEnv ℝ) (l : List (Numeral × Numeral)) (p q r : Numeral × Numeral), l = [p, q, r] ∧ PointsText "0,0 5,0 5,7".toList l ∧
    ∀ z ∈ l.dropLast.getLast?, (ptValue env z).eq (1 / 1000) (ptValue env p) = false := by
  have v : ∀ c, isDig c = true → Numeral.Valid ⟨none, [c], none, none⟩ := fun c h => ⟨by simp [h], by simp, by simp, by simp⟩
  refine ⟨⟨fun neg n _ => if neg then -(n : ℝ) else (n : ℝ)⟩, _, (⟨none, ['0'], none, none⟩, ⟨none, ['0'], none, none⟩),
    (⟨none, ['5'], none, none⟩, ⟨none, ['0'], none, none⟩), (⟨none, ['5'], none, none⟩, ⟨none, ['7'], none, none⟩), rfl, ?_, ?_⟩
  · exact .point _ _ ' ' "5,0 5,7".toList _ (v '0' rfl) (v '0' rfl) (.inl rfl) (.point _ _ ' ' "5,7".toList _ (v '5' rfl) (v '0' rfl) (.inl rfl)
      (.last _ _ (v '5' rfl) (v '7' rfl)))
  · intro z hz
    simp at hz
    subst hz
    rw [eq_false_iff]
    simp [sqDist, ptValue, Numeral.value, Numeral.negative, natOf]
    norm_num

end Verif.Svg
