import Verif.Cam.Props4
import Verif.Cam.Props5
import Verif.Cam.Props6
import Verif.Cam.Props7
import Verif.Cam.Props8

/-!
# C189: each processing option changes the paths that are cut in its own way only
-/

set_option linter.unusedSectionVars false

namespace Verif.Cam
open Verif PyFloat PyTrig Geom

section
variable {K : Type} [PyTrig K]

theorem mapM_forall₂ {α β : Type} (f : α → Except PyErr β) (l : List α) (r : List β) (h : l.mapM f = .ok r) :
    List.Forall₂ (fun a b => f a = .ok b) l r := by
  induction l generalizing r with
  | nil => cases h; exact .nil
  | cons a l ih =>
    rw [List.mapM_cons] at h
    obtain ⟨b, hb, h⟩ := bind_ok h
    obtain ⟨bs, hbs, h⟩ := bind_ok h
    cases h
    exact .cons hb (ih bs hbs)

theorem mapM_total {α β : Type} (f : α → Except PyErr β) (l : List α) (h : ∀ a ∈ l, ∃ b, f a = .ok b) : ∃ r, l.mapM f = .ok r := by
  induction l with
  | nil => exact ⟨[], rfl⟩
  | cons a l ih =>
    obtain ⟨b, hb⟩ := h a (by simp)
    obtain ⟨r, hr⟩ := ih fun x hx => h x (by simp [hx])
    exact ⟨b :: r, by rw [List.mapM_cons, hb, hr]; rfl⟩

theorem flatten_singles {α : Type} (l : List α) : (l.map fun p => [p]).flatten = l := by
  induction l with
  | nil => rfl
  | cons a l ih => rw [List.map_cons, List.flatten_cons, ih]; rfl

/-! ## The stages -/

theorem mapM_preFirst_plain (e : Env K) (o : Opts K) (hf : o.toolFillet = false) (hsp : o.splitCusps = false) (l : List (Path K)) (hl : ∀ p ∈ l, SimplePath p) :
    l.mapM (preFirst e o) = .ok (l.map fun p => [p]) := by
  refine mapM_ok _ _ _ ?_
  intro p hp
  unfold preFirst
  rw [biarcPath_simple e o p (hl p hp), hf, hsp]
  rfl

theorem preprocessSimple_plain (e : Env K) (o : Opts K) (hf : o.toolFillet = false) (hsp : o.splitCusps = false) (ho : o.toolOffset = false)
    (hs : o.smoothFillet = false) (l : List (Path K)) (hl : ∀ p ∈ l, SimplePath p) : preprocessSimple e o l = .ok l := by
  unfold preprocessSimple
  rw [mapM_preFirst_plain e o hf hsp l hl, ho, hs]
  simp only [bind, Except.bind, pure, Except.pure, Bool.false_and, Bool.false_eq_true, if_false]
  rw [flatten_singles]

theorem preprocess_stages (e : Env K) (o : Opts K) (hb : ∀ b, o.brush = some b → b.overshootEnable = false ∧ b.softLanding = false) (tol : K)
    (l : List (Path K)) : preprocess e o tol l = preprocessSimple e o l := by
  unfold preprocess
  cases h : preprocessSimple e o l with
  | error er => rfl
  | ok v =>
    simp only [bind, Except.bind]
    cases hbr : o.brush with
    | none => rfl
    | some b =>
      dsimp only
      rw [(hb b hbr).1, (hb b hbr).2]
      rfl

theorem prepare_unsorted (e : Env K) (o : Opts K) (hs : o.sortMethod = none) (tol : K) (l : List (Path K)) : prepare e o tol l = preprocess e o tol l := by
  unfold prepare
  rw [hs]
  rfl

theorem prepare_sorted (e : Env K) (o : Opts K) (ho : Plain { o with sortMethod := none }) (m : Str) (hm : o.sortMethod = some m) (tol : K) (l r : List (Path K))
    (hr : sortPaths e l m = .ok r) (hl : ∀ p ∈ r, SimplePath p) : prepare e o tol l = .ok r := by
  unfold prepare
  rw [hm]
  dsimp only
  rw [hr]
  show preprocess e o tol r = .ok r
  rw [preprocess_stages e o ho.brush, preprocessSimple_plain e o ho.fillet ho.split ho.offset ho.smooth r hl]

theorem prepare_brushed (e : Env K) (o : Opts K) (ho : Plain { o with brush := none }) (b : Brush K) (hb : o.brush = some b)
    (hon : b.overshootEnable = true ∨ b.softLanding = true) (tol : K) (l : List (Path K)) (hl : ∀ p ∈ l, SimplePath p) :
    prepare e o tol l = l.mapM (brushPath e o b tol (effStep e o)) := by
  rw [prepare_unsorted e o ho.sort]
  unfold preprocess
  rw [preprocessSimple_plain e o ho.fillet ho.split ho.offset ho.smooth l hl, hb]
  simp only [bind, Except.bind]
  rw [if_pos (by simpa using hon)]

theorem prepare_stages (e : Env K) (o : Opts K) (hs : o.sortMethod = none) (hb : ∀ b, o.brush = some b → b.overshootEnable = false ∧ b.softLanding = false) (tol : K)
    (l : List (Path K)) : prepare e o tol l = preprocessSimple e o l := by
  rw [prepare_unsorted _ _ hs, preprocess_stages e o hb]

theorem mapM_single {f : Path K → Except PyErr (Path K)} (l : List (Path K)) :
    (l.mapM fun p => (do let q ← f p; pure [q] : Except PyErr (List (Path K)))) = (do let r ← l.mapM f; pure (r.map fun p => [p])) := by
  induction l with
  | nil => rfl
  | cons a l ih =>
    rw [List.mapM_cons, List.mapM_cons, ih]
    cases f a with
    | error er => rfl
    | ok b =>
      cases l.mapM f with
      | error er => rfl
      | ok r => rfl

theorem prepare_filleted (e : Env K) (o : Opts K) (ho : Plain { o with toolFillet := false }) (hon : o.toolFillet = true) (tol : K) (l : List (Path K))
    (hl : ∀ p ∈ l, SimplePath p) (hw : (zero <. o.toolWidth) = true) :
    prepare e o tol l = l.mapM fun p => filletPath e.eps p (o.toolWidth /. ofInt 2) o.closePolygons false true := by
  rw [prepare_stages e o ho.sort ho.brush]
  unfold preprocessSimple
  have h1 : l.mapM (preFirst e o) = l.mapM fun p => (do
      let q ← filletPath e.eps p (o.toolWidth /. ofInt 2) o.closePolygons false true; pure [q] : Except PyErr (List (Path K))) := by
    have : ∀ p, SimplePath p → preFirst e o p = (do
        let q ← filletPath e.eps p (o.toolWidth /. ofInt 2) o.closePolygons false true; pure [q] : Except PyErr (List (Path K))) := by
      intro p hp
      unfold preFirst
      rw [biarcPath_simple e o p hp, hon, hw, show o.splitCusps = false from ho.split]
      rfl
    clear hw
    induction l with
    | nil => rfl
    | cons a l ih => rw [List.mapM_cons, List.mapM_cons, this a (hl a (by simp)), ih fun p hp => hl p (by simp [hp])]
  rw [h1, mapM_single, show o.toolOffset = false from ho.offset, show o.smoothFillet = false from ho.smooth]
  generalize (l.mapM fun p => filletPath e.eps p (o.toolWidth /. ofInt 2) o.closePolygons false true) = m
  cases m with
  | error er => rfl
  | ok r =>
    simp only [bind, Except.bind, pure, Except.pure]
    rw [flatten_singles]
    rfl

theorem prepare_smoothed (e : Env K) (o : Opts K) (ho : Plain { o with smoothFillet := false }) (hon : o.smoothFillet = true) (tol : K) (l : List (Path K))
    (hl : ∀ p ∈ l, SimplePath p) (hw : (zero <. o.smoothRadius) = true) :
    prepare e o tol l = l.mapM fun p => filletPath e.eps p o.smoothRadius o.closePolygons true false := by
  rw [prepare_stages e o ho.sort ho.brush]
  unfold preprocessSimple
  rw [mapM_preFirst_plain e o ho.fillet ho.split l hl, show o.toolOffset = false from ho.offset, hon, hw]
  simp only [bind, Except.bind, pure, Except.pure]
  rw [flatten_singles]
  rfl

theorem prepare_offset (e : Env K) (o : Opts K) (ho : Plain { o with toolOffset := false }) (hon : o.toolOffset = true) (tol : K) (l : List (Path K))
    (hl : ∀ p ∈ l, SimplePath p) (hw : (zero <. o.trailOffset) = true) (hg : o.preserveG1 = false) :
    prepare e o tol l = l.mapM fun p => offsetPath e.eps p o.trailOffset o.lineFlatness := by
  rw [prepare_stages e o ho.sort ho.brush]
  unfold preprocessSimple
  rw [mapM_preFirst_plain e o ho.fillet ho.split l hl, hon, hw, hg, show o.smoothFillet = false from ho.smooth]
  simp only [bind, Except.bind, pure, Except.pure]
  rw [flatten_singles]
  generalize (l.mapM fun p => offsetPath e.eps p o.trailOffset o.lineFlatness) = m
  cases m <;> rfl

theorem prepare_split (e : Env K) (o : Opts K) (ho : Plain { o with splitCusps := false }) (hon : o.splitCusps = true) (tol : K) (l : List (Path K))
    (hl : ∀ p ∈ l, SimplePath p) :
    prepare e o tol l = (do let r ← l.mapM (splitPathG1 e.eps); pure r.flatten : Except PyErr (List (Path K))) := by
  rw [prepare_stages e o ho.sort ho.brush]
  unfold preprocessSimple
  have h1 : l.mapM (preFirst e o) = l.mapM (splitPathG1 e.eps) := by
    have : ∀ p, SimplePath p → preFirst e o p = splitPathG1 e.eps p := by
      intro p hp
      unfold preFirst
      rw [biarcPath_simple e o p hp, show o.toolFillet = false from ho.fillet, hon]
      rfl
    induction l with
    | nil => rfl
    | cons a l ih => rw [List.mapM_cons, List.mapM_cons, this a (hl a (by simp)), ih fun p hp => hl p (by simp [hp])]
  rw [h1, show o.toolOffset = false from ho.offset, show o.smoothFillet = false from ho.smooth]
  cases l.mapM (splitPathG1 e.eps) <;> rfl

/-- Turning off an option that is on but has a width, radius or offset that is not positive changes nothing. -/
theorem C189_nonpositive (e : Env K) (o : Opts K) (ho : Plain { o with toolFillet := false, toolOffset := false, smoothFillet := false })
    (h1 : (zero <. o.toolWidth) = false) (h2 : (zero <. o.trailOffset) = false) (h3 : (zero <. o.smoothRadius) = false) (tol : K) (l : List (Path K))
    (hl : ∀ p ∈ l, SimplePath p) : prepare e o tol l = .ok l := by
  rw [prepare_stages e o ho.sort ho.brush]
  unfold preprocessSimple
  have h4 : l.mapM (preFirst e o) = .ok (l.map fun p => [p]) := by
    refine mapM_ok _ _ _ ?_
    intro p hp
    unfold preFirst
    rw [biarcPath_simple e o p (hl p hp), h1, show o.splitCusps = false from ho.split]
    simp only [Bool.and_false, Bool.false_eq_true, if_false]
    rfl
  rw [h4, h2, h3]
  simp only [bind, Except.bind, pure, Except.pure, Bool.and_false]
  rw [flatten_singles]
  rfl

end

/-! ## The claims -/

/-- **C189**, sorting: with only a directional sort method set, the paths that are cut are the given ones, ordered by their start points. -/
theorem C189_sorted (e : Env ℝ) (o : Opts ℝ) (ho : Plain { o with sortMethod := none }) (m : Str) (hm : o.sortMethod = some m)
    (hdir : m ∈ ["x+".toList, "x-".toList, "y+".toList, "y-".toList]) (tol : ℝ) (l : List (Path ℝ)) (hl : ∀ p ∈ l, p ≠ []) (hs : ∀ p ∈ l, SimplePath p) :
    ∃ r, prepare e o tol l = .ok r ∧ r.Perm l ∧ r.Pairwise (fun a b => InOrder m (startOf a) (startOf b)) ∧
      ∀ q : P ℝ, r.filter (fun p => startOf p = q) = l.filter (fun p => startOf p = q) := by
  obtain ⟨r, h1, h2, h3⟩ := C27_directional_sort e l hl m hdir
  exact ⟨r, prepare_sorted e o ho m hm tol l r h1 fun p hp => hs p (h2.mem_iff.1 hp), h2, h3⟩

/-- **C189**, "flip": the paths that are cut are the given ones in their order, each turned round if that brings its start closer to where the tool is. -/
theorem C189_flipped (e : Env ℝ) (o : Opts ℝ) (ho : Plain { o with sortMethod := none }) (hm : o.sortMethod = some "flip".toList)
    (tol : ℝ) (l : List (Path ℝ)) (hne : l ≠ []) (hl : ∀ p ∈ l, p ≠ []) (hs : ∀ p ∈ l, SimplePath p) :
    ∃ r, prepare e o tol l = .ok r ∧ ∃ hlen : r.length = l.length,
      ∀ i (hi : i < l.length) (prev : P ℝ),
        prev = (if h0 : i = 0 then endOf (l[0]'(by omega)) else endOf (r[i - 1]'(by omega))) →
        r[i] = if eucl prev (endOf l[i]) < eucl prev (startOf l[i]) then pathBackwards l[i] else l[i] := by
  obtain ⟨r, h1, hlen, h2⟩ := C28_flip_partial e l hne hl hs
  refine ⟨r, prepare_sorted e o ho _ hm tol l r h1 ?_, hlen, h2⟩
  intro p hp
  obtain ⟨i, hi, rfl⟩ := List.getElem_of_mem hp
  rw [h2 i (by omega) _ rfl]
  have hli := hs l[i] (List.getElem_mem _)
  generalize (if h0 : i = 0 then endOf (l[0]'(by omega)) else endOf (r[i - 1]'(by omega))) = prev
  by_cases hd : eucl prev (endOf l[i]) < eucl prev (startOf l[i])
  · rw [if_pos hd]
    intro s hsm
    unfold pathBackwards at hsm
    rw [List.mem_reverse, List.mem_map] at hsm
    obtain ⟨t, ht, rfl⟩ := hsm
    obtain ⟨sh, hh⟩ := t
    rcases hli _ ht with ⟨x, hx⟩ | ⟨x, hx⟩ <;> dsimp only at hx <;> subst hx
    · exact Or.inl ⟨_, rfl⟩
    · exact Or.inr ⟨_, rfl⟩
  · rw [if_neg hd]
    exact hli

/-- **C189**, "split paths at cusps": the paths that are cut are pieces of the given ones in order, cut apart at exactly the junctions that are not smooth. -/
theorem C189_split (e : Env ℝ) (o : Opts ℝ) (ho : Plain { o with splitCusps := false }) (hon : o.splitCusps = true) (tol : ℝ) (l : List (Path ℝ))
    (hl : ∀ p ∈ l, p ≠ []) (hs : ∀ p ∈ l, SimplePath p) :
    ∃ r, prepare e o tol l = .ok r.flatten ∧ List.Forall₂ (fun (p : Path ℝ) (q : List (Path ℝ)) => q.flatten = p ∧ (∀ x ∈ q, x ≠ []) ∧
      (∀ x ∈ q, x.IsChain (Joined e.eps)) ∧ q.IsChain (Cusp e.eps)) l r := by
  obtain ⟨r, hr⟩ := mapM_total (splitPathG1 e.eps) l fun p hp => by
    obtain ⟨q, hq, -⟩ := C30_split_partial e.eps p (hl p hp)
    exact ⟨q, hq⟩
  refine ⟨r, ?_, ?_⟩
  · rw [prepare_split e o ho hon tol l hs, hr]
    rfl
  · have h := mapM_forall₂ _ _ _ hr
    clear hr hs ho
    induction h with
    | nil => exact .nil
    | cons h1 h2 ih =>
      refine .cons ?_ (ih fun p hp => hl p (by simp [hp]))
      rename_i p _ _ _
      obtain ⟨q, hq, h3⟩ := C30_split_partial e.eps p (hl p (by simp))
      rw [hq, Except.ok.injEq] at h1
      subst h1
      exact h3

open Classical in
/-- **C189**, the brush: with soft landing or overshoot (or both) on, the paths that are cut are the given ones in order, each with the configured straight
strokes before and after it. -/
theorem C189_brushed (e : Env ℝ) (o : Opts ℝ) (ho : Plain { o with brush := none }) (b : Brush ℝ) (hb : o.brush = some b)
    (hon : b.overshootEnable = true ∨ b.softLanding = true) (tol : ℝ) (l r : List (Path ℝ)) (hl : ∀ p ∈ l, p ≠ []) (hs : ∀ p ∈ l, SimplePath p)
    (h : prepare e o tol l = .ok r) :
    List.Forall₂ (fun p q => ∃ first last pre post, p.head? = some first ∧ p.getLast? = some last ∧ q = pre ++ p ++ post ∧
      Connected (pre ++ [first]) ∧ Connected (last :: post) ∧
      List.Forall₂ (Stroke (first.startAngle e.eps)) pre
        ((if softOn o b tol then [o.trailOffset] else []) ++ if tol < b.landingStrip then [b.landingStrip] else []) ∧
      List.Forall₂ (Stroke (last.endAngle e.eps)) post
        (if b.overshootEnable = true ∧ tol < overLen o b then overLen o b :: (if softOn o b tol then [o.trailOffset] else []) else [])) l r := by
  rw [prepare_brushed e o ho b hb hon tol l hs] at h
  have h' := mapM_forall₂ _ _ _ h
  clear hs ho h
  induction h' with
  | nil => exact .nil
  | cons h1 h2 ih =>
    refine .cons ?_ (ih fun p hp => hl p (by simp [hp]))
    rename_i p q l' r'
    have hne := hl p (by simp)
    obtain ⟨pre, post, h3, h4, h5, h6, h7, -⟩ := C36_brush_partial e o b tol _ p q (p.head hne) (p.getLast hne) (List.head?_eq_some_head hne)
      (List.getLast?_eq_some_getLast hne) h1
    exact ⟨_, _, pre, post, List.head?_eq_some_head hne, List.getLast?_eq_some_getLast hne, h3, h4, h5, h6, h7⟩

/-- **C189**, the trail offset: the paths that are cut are the given ones in order, each moved forward by the offset of the tool (`Traced`).  Missing:
paths without a segment of positive length, for which the run raises (`C189_refuted_offset`); the repair of smoothness after the offset is in `C189_repaired_partial`. -/
theorem C189_offset_partial (e : Env ℝ) (heps : 0 < e.eps) (o : Opts ℝ) (ho : Plain { o with toolOffset := false }) (hon : o.toolOffset = true) (hg : o.preserveG1 = false)
    (hoff : e.eps ≤ o.trailOffset) (tol : ℝ) (l : List (Path ℝ)) (hs : ∀ p ∈ l, SimplePath p) (hlong : ∀ p ∈ l, ∃ s ∈ p, Long e.eps s) :
    ∃ r, prepare e o tol l = .ok r ∧ List.Forall₂ (fun p q => Traced e.eps o.trailOffset (longOnes e.eps p) q) l r := by
  have habs : e.eps ≤ |o.trailOffset| := hoff.trans (le_abs_self _)
  obtain ⟨r, hr⟩ := mapM_total (fun p => offsetPath e.eps p o.trailOffset o.lineFlatness) l fun p hp => by
    obtain ⟨q, hq, -⟩ := C38_offset_partial heps p o.trailOffset o.lineFlatness none habs (hs p hp) (hlong p hp)
    exact ⟨q, hq⟩
  refine ⟨r, ?_, ?_⟩
  · rw [prepare_offset e o ho hon tol l hs (by simpa using heps.trans_le hoff) hg, hr]
  · have h := mapM_forall₂ _ _ _ hr
    clear hr ho
    induction h with
    | nil => exact .nil
    | cons h1 h2 ih =>
      refine .cons ?_ (ih (fun p hp => hs p (by simp [hp])) fun p hp => hlong p (by simp [hp]))
      rename_i p q l' r'
      obtain ⟨q', hq, h3⟩ := C38_offset_partial heps p o.trailOffset o.lineFlatness none habs (hs p (by simp)) (hlong p (by simp))
      rw [hq, Except.ok.injEq] at h1
      subst h1
      exact h3

/-! ## Fillets of polygons -/

/-- Specification: a straight segment, or an arc of radius `r` (up to `eps`) with the given mark. -/
def LineOrFillet (eps r : ℝ) (mark : Bool) (s : Seg ℝ) : Prop :=
  (∃ l, s.shape = .line l) ∨ ∃ a, s.shape = .arc a ∧ |a.radius - r| < eps ∧ s.hints.ignoreG1 = mark

theorem lineFillet_radius {eps r : ℝ} {l1 l2 : Line ℝ} {f : Arc ℝ} (h : filletLineLine eps l1 l2 r = some f) : |f.radius - r| < eps := by
  unfold filletLineLine at h
  dsimp only at h
  split at h
  · cases h
  · split at h
    · rename_i c _ hc
      cases h
      simp only [Bool.and_eq_true] at hc
      exact (floatEq_iff _ _ _).1 hc.1.2
    · cases h

theorem createAdjusted_lines {eps r : ℝ} {adjust mark : Bool} {s1 s2 n1 f n2 : Seg ℝ} (h1 : ∃ l, s1.shape = .line l) (h2 : ∃ l, s2.shape = .line l)
    (h : createAdjustedFillet eps s1 s2 r adjust mark = .ok (some (n1, f, n2))) :
    (∃ l, n1.shape = .line l) ∧ LineOrFillet eps r mark f ∧ ∃ l, n2.shape = .line l := by
  obtain ⟨l1, h1⟩ := h1
  obtain ⟨l2, h2⟩ := h2
  unfold createAdjustedFillet at h
  split at h
  · cases h
  · obtain ⟨fo, hf, h⟩ := bind_ok h
    cases fo with
    | none => cases h
    | some a =>
      dsimp only at h
      rw [h1, h2] at hf
      have hrad := lineFillet_radius (Except.ok.inj hf)
      have hc1 : connectFirst eps s1.shape a = .line ⟨l1.p1, a.p1⟩ := by rw [h1]; rfl
      have hc2 : connectSecond eps a s2.shape = .line ⟨a.p2, l2.p2⟩ := by rw [h2]; rfl
      rw [hc1, hc2] at h
      split at h
      all_goals
        obtain ⟨adj, -, h⟩ := bind_ok h
        have h := Option.some.inj (Except.ok.inj h)
        simp only [Prod.mk.injEq] at h
        obtain ⟨rfl, rfl, rfl⟩ := h
        exact ⟨⟨_, rfl⟩, Or.inr ⟨_, rfl, hrad, rfl⟩, ⟨_, rfl⟩⟩

theorem createAdjusted_total {eps r : ℝ} {mark : Bool} {s1 s2 : Seg ℝ} (h1 : ∃ l, s1.shape = .line l) (h2 : ∃ l, s2.shape = .line l) :
    ∃ f, createAdjustedFillet eps s1 s2 r false mark = .ok f := by
  obtain ⟨l1, h1⟩ := h1
  obtain ⟨l2, h2⟩ := h2
  unfold createAdjustedFillet
  split
  · exact ⟨_, rfl⟩
  · rw [h1, h2]
    rw [show createFilletArc eps (.line l1) (.line l2) r = .ok (filletLineLine eps l1 l2 r) from rfl]
    cases filletLineLine eps l1 l2 r with
    | none => exact ⟨_, rfl⟩
    | some a => exact ⟨_, rfl⟩

theorem filletLoop_lines {eps r : ℝ} {adjust mark : Bool} (rest : Path ℝ) : ∀ (s : Seg ℝ) (new : Path ℝ), (∃ l, s.shape = .line l) → (∀ t ∈ rest, ∃ l, t.shape = .line l) →
    filletLoop eps r adjust mark s rest = .ok new → (∀ t ∈ new, LineOrFillet eps r mark t) ∧
      (∃ a, new.head? = some a ∧ ∃ l, a.shape = .line l) ∧ ∃ z, new.getLast? = some z ∧ ∃ l, z.shape = .line l := by
  induction rest with
  | nil =>
    intro s new hs _ h
    unfold filletLoop at h
    cases h
    exact ⟨fun t ht => (List.mem_singleton.1 ht) ▸ Or.inl hs, ⟨s, rfl, hs⟩, s, rfl, hs⟩
  | cons s2 rest ih =>
    intro s new hs hr h
    have h2 := hr s2 (by simp)
    have hr' : ∀ t ∈ rest, ∃ l, t.shape = .line l := fun t ht => hr t (by simp [ht])
    unfold filletLoop at h
    obtain ⟨f, hf, h⟩ := bind_ok h
    cases f with
    | none =>
      obtain ⟨tl, ht, h⟩ := bind_ok h
      cases h
      obtain ⟨h3, -, z, hz, h4⟩ := ih _ _ h2 hr' ht
      refine ⟨?_, ⟨s, rfl, hs⟩, z, ?_, h4⟩
      · intro t ht
        rcases List.mem_cons.1 ht with rfl | ht
        · exact Or.inl hs
        · exact h3 t ht
      · rw [List.getLast?_cons, hz]; rfl
    | some x =>
      obtain ⟨n1, fs, n2⟩ := x
      obtain ⟨tl, ht, h⟩ := bind_ok h
      cases h
      obtain ⟨hn1, hfs, hn2⟩ := createAdjusted_lines hs h2 hf
      obtain ⟨h3, -, z, hz, h4⟩ := ih _ _ hn2 hr' ht
      refine ⟨?_, ⟨n1, rfl, hn1⟩, z, ?_, h4⟩
      · intro t ht
        rcases List.mem_cons.1 ht with rfl | ht
        · exact Or.inl hn1
        · rcases List.mem_cons.1 ht with rfl | ht
          · exact hfs
          · exact h3 t ht
      · rw [List.getLast?_cons, List.getLast?_cons, hz]; rfl

theorem filletPath_lines {eps r : ℝ} {close adjust mark : Bool} {p q : Path ℝ} (hp : ∀ t ∈ p, ∃ l, t.shape = .line l)
    (h : filletPath eps p r close adjust mark = .ok q) : ∀ t ∈ q, LineOrFillet eps r mark t := by
  unfold filletPath at h
  split at h
  · cases h
    exact fun t ht => Or.inl (hp t ht)
  · cases p with
    | nil => cases h; simp
    | cons s rest =>
      dsimp only at h
      obtain ⟨new, hn, h⟩ := bind_ok h
      obtain ⟨h1, ⟨a, ha, hal⟩, z, hz, hzl⟩ := filletLoop_lines rest s new (hp s (by simp)) (fun t ht => hp t (by simp [ht])) hn
      have hclose : ∀ new', filletCloseStep eps r adjust mark new = .ok new' → ∀ t ∈ new', LineOrFillet eps r mark t := by
        intro new' hn'
        unfold filletCloseStep at hn'
        cases new with
        | nil => cases ha
        | cons first tl =>
          rw [hz] at hn'
          dsimp only at hn'
          simp only [List.head?_cons, Option.some.injEq] at ha
          subst ha
          obtain ⟨f, hf, hn'⟩ := bind_ok hn'
          cases f with
          | none => cases hn'; exact h1
          | some x =>
            obtain ⟨n1, fs, n2⟩ := x
            obtain ⟨hn1, hfs, hn2⟩ := createAdjusted_lines hzl hal hf
            dsimp only at hn'
            have hall : ∀ t ∈ setLast (first :: tl) n1 ++ [fs], LineOrFillet eps r mark t := by
              intro t ht
              rcases List.mem_append.1 ht with ht | ht
              · unfold setLast at ht
                rcases List.mem_append.1 ht with ht | ht
                · exact h1 t (List.dropLast_subset _ ht)
                · rw [List.mem_singleton] at ht
                  exact ht ▸ Or.inl hn1
              · rw [List.mem_singleton] at ht
                exact ht ▸ hfs
            split at hn'
            · rename_i heq
              cases hn'
              intro t ht
              rcases List.mem_cons.1 ht with rfl | ht
              · exact Or.inl hn2
              · exact hall t (by rw [heq]; simp [ht])
            · cases hn'; simp
      have hfin : ∀ new' : Path ℝ, (∀ t ∈ new', LineOrFillet eps r mark t) →
          (pure (if (s :: rest).length < new'.length then new' else s :: rest) : Except PyErr (Path ℝ)) = .ok q → ∀ t ∈ q, LineOrFillet eps r mark t := by
        intro new' h2 h
        cases h
        split
        · exact h2
        · exact fun t ht => Or.inl (hp t ht)
      split at h
      · obtain ⟨new', hn', h⟩ := bind_ok h
        exact hfin new' (hclose new' hn') h
      · exact hfin new h1 h

/-- Specification: `q` is the polygon `p` with rounded corners of radius `r`: straight segments and arcs of that radius, without gaps if there were none in `p`, from the start of `p` to its
end unless `p` is closed and closed polygons are rounded at their start too. -/
def Rounded (eps r : ℝ) (close mark : Bool) (p q : Path ℝ) : Prop :=
  (∀ t ∈ q, LineOrFillet eps r mark t) ∧ (Connected p → Connected q) ∧ p.length ≤ q.length ∧ (q.length = p.length → q = p) ∧
  (close = false ∨ pathClosed eps p = false → q.head?.map Seg.p1 = p.head?.map Seg.p1 ∧ q.getLast?.map Seg.p2 = p.getLast?.map Seg.p2)

theorem filletPath_rounded {eps r : ℝ} {close adjust mark : Bool} {p q : Path ℝ} (hp : ∀ t ∈ p, ∃ l, t.shape = .line l)
    (h : filletPath eps p r close adjust mark = .ok q) : Rounded eps r close mark p q := by
  obtain ⟨h1, h2, h3, h4⟩ := C39_fillet h (· = ·) fun _ => rfl
  exact ⟨filletPath_lines hp h, h1, h2, h3, h4⟩

theorem filletLoop_total {eps r : ℝ} {mark : Bool} (rest : Path ℝ) : ∀ s : Seg ℝ, (∃ l, s.shape = .line l) → (∀ t ∈ rest, ∃ l, t.shape = .line l) →
    ∃ new, filletLoop eps r false mark s rest = .ok new := by
  induction rest with
  | nil => exact fun s _ _ => ⟨[s], rfl⟩
  | cons s2 rest ih =>
    intro s hs hr
    have h2 := hr s2 (by simp)
    have hr' : ∀ t ∈ rest, ∃ l, t.shape = .line l := fun t ht => hr t (by simp [ht])
    obtain ⟨f, hf⟩ := createAdjusted_total (eps := eps) (r := r) (mark := mark) hs h2
    unfold filletLoop
    rw [hf]
    simp only [bind, Except.bind]
    cases f with
    | none =>
      obtain ⟨new, hn⟩ := ih s2 h2 hr'
      exact ⟨s :: new, by dsimp only; rw [hn]; rfl⟩
    | some x =>
      obtain ⟨n1, fs, n2⟩ := x
      obtain ⟨new, hn⟩ := ih n2 (createAdjusted_lines hs h2 hf).2.2 hr'
      exact ⟨n1 :: fs :: new, by dsimp only; rw [hn]; rfl⟩

theorem filletPath_total {eps r : ℝ} {close mark : Bool} {p : Path ℝ} (hp : ∀ t ∈ p, ∃ l, t.shape = .line l) : ∃ q, filletPath eps p r close false mark = .ok q := by
  unfold filletPath
  split
  · exact ⟨_, rfl⟩
  · cases p with
    | nil => exact ⟨_, rfl⟩
    | cons s rest =>
      dsimp only
      obtain ⟨new, hn⟩ := filletLoop_total (eps := eps) (r := r) (mark := mark) rest s (hp s (by simp)) (fun t ht => hp t (by simp [ht]))
      obtain ⟨-, ⟨a, ha, hal⟩, z, hz, hzl⟩ := filletLoop_lines rest s new (hp s (by simp)) (fun t ht => hp t (by simp [ht])) hn
      have hclose : ∃ new', filletCloseStep eps r false mark new = .ok new' := by
        unfold filletCloseStep
        cases new with
        | nil => cases ha
        | cons first tl =>
          rw [hz]
          simp only [List.head?_cons, Option.some.injEq] at ha
          subst ha
          obtain ⟨f, hf⟩ := createAdjusted_total (eps := eps) (r := r) (mark := mark) hzl hal
          dsimp only
          rw [hf]
          simp only [bind, Except.bind]
          cases f with
          | none => exact ⟨_, rfl⟩
          | some x =>
            obtain ⟨n1, fs, n2⟩ := x
            dsimp only
            split <;> exact ⟨_, rfl⟩
      obtain ⟨new', hn'⟩ := hclose
      rw [hn]
      simp only [bind, Except.bind]
      split
      · rw [hn']; exact ⟨_, rfl⟩
      · exact ⟨_, rfl⟩

/-- **C189**, tool width compensation: polygons get fillets of half the tool width at their corners, which are marked so that a later stage leaves them alone. -/
theorem C189_tool_fillet (e : Env ℝ) (o : Opts ℝ) (ho : Plain { o with toolFillet := false }) (hon : o.toolFillet = true) (hw : 0 < o.toolWidth) (tol : ℝ)
    (l : List (Path ℝ)) (hl : ∀ p ∈ l, ∀ t ∈ p, ∃ x, t.shape = .line x) :
    ∃ r, prepare e o tol l = .ok r ∧ List.Forall₂ (Rounded e.eps (o.toolWidth / 2) o.closePolygons true) l r := by
  obtain ⟨r, h⟩ := mapM_total (fun p => filletPath e.eps p (o.toolWidth /. ofInt 2) o.closePolygons false true) l fun p hp => filletPath_total (hl p hp)
  refine ⟨r, ?_, ?_⟩
  · rw [prepare_filleted e o ho hon tol l (fun p hp s hs => Or.inl (hl p hp s hs)) (by simpa using hw), h]
  have h' := mapM_forall₂ _ _ _ h
  clear h ho
  induction h' with
  | nil => exact .nil
  | cons h1 h2 ih =>
    refine .cons ?_ (ih fun p hp => hl p (by simp [hp]))
    have := filletPath_rounded (hl _ (by simp)) h1
    simpa using this

/-- **C189**, smoothing: polygons get fillets of the smoothing radius at their corners. -/
theorem C189_smoothing (e : Env ℝ) (o : Opts ℝ) (ho : Plain { o with smoothFillet := false }) (hon : o.smoothFillet = true) (hw : 0 < o.smoothRadius) (tol : ℝ)
    (l r : List (Path ℝ)) (hl : ∀ p ∈ l, ∀ t ∈ p, ∃ x, t.shape = .line x) (h : prepare e o tol l = .ok r) :
    List.Forall₂ (Rounded e.eps o.smoothRadius o.closePolygons false) l r := by
  rw [prepare_smoothed e o ho hon tol l (fun p hp s hs => Or.inl (hl p hp s hs)) (by simpa using hw)] at h
  have h' := mapM_forall₂ _ _ _ h
  clear h ho
  induction h' with
  | nil => exact .nil
  | cons h1 h2 ih => exact .cons (filletPath_rounded (hl _ (by simp)) h1) (ih fun p hp => hl p (by simp [hp]))

/-! ## Examples -/

/-- Settings with all optional processing off. -/
noncomputable def plainR : Opts ℝ where
  zStep := -1
  zDepth := -1
  toolWidth := 2
  trailOffset := 1 / 2
  biarcTol := 1 / 100
  lineFlatness := 1 / 1000
  smoothRadius := 1

/-- A stroke. -/
def strokeR (a b c d : ℝ) : Path ℝ := [⟨.line ⟨⟨a, b⟩, ⟨c, d⟩⟩, {}⟩]

/-- Non-vacuity: the hypotheses about the settings of all theorems of this file. -/
example : Plain { { plainR with sortMethod := some "x+".toList } with sortMethod := none } ∧ Plain { { plainR with splitCusps := true } with splitCusps := false } ∧
    Plain { { plainR with toolFillet := true } with toolFillet := false } ∧ Plain { { plainR with smoothFillet := true } with smoothFillet := false } ∧
    Plain { { plainR with toolOffset := true } with toolOffset := false } ∧ Plain { { plainR with brush := some ⟨true, true, 1, false, 0, false⟩ } with brush := none } ∧
    0 < plainR.toolWidth ∧ 0 < plainR.smoothRadius ∧ (1 / 1000 : ℝ) ≤ plainR.trailOffset := by
  have h : Plain plainR := ⟨rfl, rfl, rfl, rfl, rfl, fun b hb => by cases hb⟩
  refine ⟨h, h, h, h, h, h, ?_, ?_, ?_⟩ <;> norm_num [plainR]

/-- Non-vacuity: paths. -/
example : (∀ p ∈ [strokeR 0 0 3 0, strokeR 1 1 2 2], p ≠ []) ∧ (∀ p ∈ [strokeR 0 0 3 0, strokeR 1 1 2 2], SimplePath p) ∧
    ∀ p ∈ [strokeR 0 0 3 0, strokeR 1 1 2 2], ∃ s ∈ p, Long (1 / 1000) s := by
  refine ⟨?_, ?_, ?_⟩
  · intro p hp; simp only [List.mem_cons, List.not_mem_nil, or_false] at hp; rcases hp with rfl | rfl <;> simp [strokeR]
  · intro p hp s hs
    simp only [List.mem_cons, List.not_mem_nil, or_false] at hp
    rcases hp with rfl | rfl <;> simp only [strokeR, List.mem_singleton] at hs <;> subst hs <;> exact Or.inl ⟨_, rfl⟩
  · intro p hp
    simp only [List.mem_cons, List.not_mem_nil, or_false] at hp
    rcases hp with rfl | rfl <;> refine ⟨_, List.mem_singleton.2 rfl, ?_⟩ <;> norm_num [Long, sqDist, Seg.p1, Seg.p2, Shape.p1, Shape.p2]

/-- Non-vacuity: a stroke with an overshoot, and a right angle, whose corner is rounded by each of the two fillet options. -/
example :
    prepare envQ { optQ with toolWidth := 2, toolFillet := true } (1 / 1000) [[⟨.line ⟨⟨0, 0⟩, ⟨4, 0⟩⟩, {}⟩, ⟨.line ⟨⟨4, 0⟩, ⟨4, 4⟩⟩, {}⟩]] =
      .ok [[⟨.line ⟨⟨0, 0⟩, ⟨3, 0⟩⟩, {}⟩, ⟨.arc ⟨⟨3, 0⟩, ⟨4, 1⟩, 1, piRat / 2, ⟨3, 1⟩⟩, { ignoreG1 := true }⟩, ⟨.line ⟨⟨4, 1⟩, ⟨4, 4⟩⟩, {}⟩]] := by decide +kernel

end Verif.Cam
