import Verif.Cam.Props7

/-!
# C38, C39: offset and filleted paths stay connected
-/

set_option linter.unusedSectionVars false

namespace Verif.Cam
open Verif PyFloat PyTrig Geom GCode

/-! ## C38 -/

/-- Specification: the segment has (numerically) positive length. -/
def Long (eps : ℝ) (s : Seg ℝ) : Prop := eps ^ 2 ≤ sqDist s.p1 s.p2

/-- Specification: `o` is `s` moved forward by `off`: a line is translated along itself, the ends of an arc move along their
tangents, which gives an arc about the same centre with the same sweep. -/
def OffsetOf (off : ℝ) (s o : Seg ℝ) : Prop :=
  (∃ l : Line ℝ, s.shape = .line l ∧
    o.shape = .line (shiftL ⟨off / segLen l * (l.p2.x - l.p1.x), off / segLen l * (l.p2.y - l.p1.y)⟩ l)) ∨
  (∃ a b : Arc ℝ, s.shape = .arc a ∧ o.shape = .arc b ∧ b.center = a.center ∧ b.angle = a.angle ∧
    b.radius = Real.sqrt (off ^ 2 + a.radius ^ 2) ∧
    b.p1 = ⟨a.p1.x + off * Real.cos a.startTangent, a.p1.y + off * Real.sin a.startTangent⟩ ∧
    b.p2 = ⟨a.p2.x + off * Real.cos a.endTangent, a.p2.y + off * Real.sin a.endTangent⟩)

/-- Specification: `b` bridges the gap between the offset segments `o` (of `s`) and `o'` (of `s'`): a line or an arc about the
corner with radius `off`, which turns the tool from the end direction of `s` to the start direction of `s'`. -/
def Bridge (eps off : ℝ) (s s' o o' b : Seg ℝ) : Prop :=
  b.p1 = o.p2 ∧ b.p2 = o'.p1 ∧
  (b.shape = .line ⟨o.p2, o'.p1⟩ ∨ ∃ a : Arc ℝ, b.shape = .arc a ∧ a.center = s.p2 ∧ a.radius = off) ∧
  b.hints.startA = some (s.shape.endTangent eps) ∧ b.hints.endA = some (s'.shape.startTangent eps)

/-- Specification: the output consists of the offsets of the input segments in order; where one does not end (within `eps`)
where the next starts there is a bridge. -/
inductive Traced (eps off : ℝ) : Path ℝ → Path ℝ → Prop
  | one (s o : Seg ℝ) : OffsetOf off s o → Traced eps off [s] [o]
  | join (s s' o o' : Seg ℝ) (ss os : Path ℝ) : OffsetOf off s o → sqDist o.p2 o'.p1 < eps ^ 2 →
      Traced eps off (s' :: ss) (o' :: os) → Traced eps off (s :: s' :: ss) (o :: o' :: os)
  | bridge (s s' o o' b : Seg ℝ) (ss os : Path ℝ) : OffsetOf off s o → eps ^ 2 ≤ sqDist o.p2 o'.p1 →
      Bridge eps off s s' o o' b →
      Traced eps off (s' :: ss) (o' :: os) → Traced eps off (s :: s' :: ss) (o :: b :: o' :: os)

/-- Only the shape of the first output segment matters. -/
theorem Traced.head_shape {eps off : ℝ} {ss os : Path ℝ} {o o' : Seg ℝ} (h : Traced eps off ss (o :: os))
    (hs : o'.shape = o.shape) : Traced eps off ss (o' :: os) := by
  have ho : ∀ s, OffsetOf off s o → OffsetOf off s o' := by
    intro s; unfold OffsetOf; rw [hs]; exact id
  have hp : o'.p2 = o.p2 := by unfold Seg.p2; rw [hs]
  cases h with
  | one s _ h => exact .one _ _ (ho _ h)
  | join s s' _ o2 ss os h1 h2 h3 => exact .join _ _ _ _ _ _ (ho _ h1) (by rw [hp]; exact h2) h3
  | bridge s s' _ o2 b ss os h1 h2 h3 h4 =>
    refine .bridge _ _ _ _ _ _ _ (ho _ h1) (by rw [hp]; exact h2) ?_ h4
    unfold Bridge at *
    rw [hp]; exact h3

theorem offsetSeg_spec {eps : ℝ} (heps : 0 < eps) {s o : Seg ℝ} {off : ℝ} (hl : Long eps s) (h : offsetSeg s off = .ok o) :
    OffsetOf off s o := by
  unfold offsetSeg at h
  split at h
  · rename_i l hs
    have hpos : 0 < segLen l := by
      unfold segLen
      apply Real.sqrt_pos.2
      have : eps ^ 2 ≤ sqDist l.p1 l.p2 := by
        have := hl; unfold Long Seg.p1 Seg.p2 at this; rw [hs] at this; exact this
      have := pow_pos heps 2
      linarith
    obtain ⟨v, h1, h2, -⟩ := C58_shift l off hpos
    rw [h1] at h
    cases h
    exact Or.inl ⟨l, hs, by rw [h2]⟩
  · rename_i a hs
    cases h
    exact Or.inr ⟨a, _, hs, rfl, rfl, rfl, rfl, rfl, rfl⟩
  · cases h

open Classical in
/-- Specification: the segments of positive length. -/
noncomputable def longOnes (eps : ℝ) (p : Path ℝ) : Path ℝ := p.filter fun s => decide (Long eps s)

theorem longOnes_mem (eps : ℝ) (p : Path ℝ) (s : Seg ℝ) : s ∈ longOnes eps p ↔ s ∈ p ∧ Long eps s := by
  unfold longOnes
  simp

theorem longOnes_cons {eps : ℝ} {s : Seg ℝ} (h : ¬ s.p1.eq eps s.p2 = true) (p : Path ℝ) :
    Long eps s ∧ longOnes eps (s :: p) = s :: longOnes eps p := by
  have hl : Long eps s := (eq_false_iff eps _ _).1 (by simpa using h)
  refine ⟨hl, ?_⟩
  unfold longOnes
  rw [List.filter_cons_of_pos (by simpa using hl)]

theorem longOnes_skip {eps : ℝ} {s : Seg ℝ} (h : s.p1.eq eps s.p2 = true) (p : Path ℝ) :
    longOnes eps (s :: p) = longOnes eps p := by
  have hl : ¬ Long eps s := by
    rw [Long, ← eq_false_iff, h]; simp
  unfold longOnes
  rw [List.filter_cons_of_neg (by simpa using hl)]

theorem connectSeg_bridge (eps g1tol minArc off : ℝ) (ps po s o po' : Seg ℝ) (hp : po'.shape = po.shape) :
    Bridge eps off ps s po' o (connectSeg eps g1tol minArc off ps po s o) := by
  have hp2 : po'.p2 = po.p2 := by unfold Seg.p2; rw [hp]
  unfold Bridge connectSeg
  rw [hp2]
  by_cases hc : ((po.p2.distance o.p1 <. minArc) || segmentsAreG1 eps g1tol po.shape o.shape) = true
  · refine ⟨?_, ?_, Or.inl ?_, rfl, rfl⟩
    · show Shape.p1 (if _ then _ else _) = _; rw [if_pos hc]; rfl
    · show Shape.p2 (if _ then _ else _) = _; rw [if_pos hc]; rfl
    · dsimp only; rw [if_pos hc]
  · refine ⟨?_, ?_, Or.inr ⟨_, if_neg hc, rfl, rfl⟩, rfl, rfl⟩
    · show Shape.p1 (if _ then _ else _) = _; rw [if_neg hc]; rfl
    · show Shape.p2 (if _ then _ else _) = _; rw [if_neg hc]; rfl

theorem offsetLoop_some {eps : ℝ} (heps : 0 < eps) (g1tol minArc off : ℝ) (rest : Path ℝ) :
    ∀ (ps po : Seg ℝ) (acc r : Path ℝ), OffsetOf off ps po →
      offsetLoop eps g1tol minArc off (some (ps, po)) (acc ++ [po]) rest = .ok r →
      ∃ po' tl, r = acc ++ po' :: tl ∧ po'.shape = po.shape ∧ Traced eps off (ps :: longOnes eps rest) (po' :: tl) := by
  induction rest with
  | nil =>
    intro ps po acc r ho h
    unfold offsetLoop at h
    cases h
    exact ⟨po, [], rfl, rfl, .one _ _ ho⟩
  | cons s rest ih =>
    intro ps po acc r ho h
    unfold offsetLoop at h
    by_cases hz : s.p1.eq eps s.p2 = true
    · rw [if_pos hz] at h
      have hlo := longOnes_skip hz rest
      rw [hlo]
      exact ih ps po acc r ho h
    · rw [if_neg hz] at h
      obtain ⟨hlong, hlo⟩ := longOnes_cons hz rest
      obtain ⟨o, hos, h⟩ := bind_ok h
      have ho2 := offsetSeg_spec heps hlong hos
      dsimp only at h
      rw [hlo]
      split at h
      · rename_i hne
        have hd : eps ^ 2 ≤ sqDist po.p2 o.p1 := by
          rw [← eq_false_iff]; simpa [P.ne, P.eq] using hne
        rw [show acc ++ [po] ++ [connectSeg eps g1tol minArc off ps po s o, o]
          = (acc ++ [po, connectSeg eps g1tol minArc off ps po s o]) ++ [o] by simp] at h
        obtain ⟨o', tl, h1, h2, h3⟩ := ih s o _ r ho2 h
        refine ⟨po, connectSeg eps g1tol minArc off ps po s o :: o' :: tl, by rw [h1]; simp, rfl, ?_⟩
        have hp1 : o'.p1 = o.p1 := by unfold Seg.p1; rw [h2]
        refine .bridge _ _ _ _ _ _ _ ho (by rw [hp1]; exact hd) ?_ h3
        have := connectSeg_bridge eps g1tol minArc off ps po s o po rfl
        unfold Bridge at this ⊢
        rw [hp1]; exact this
      · rename_i hne
        have hd : sqDist po.p2 o.p1 < eps ^ 2 := by
          rw [← eq_iff]; simpa [P.ne, P.eq] using hne
        split at h
        · have hset : setLast (acc ++ [po]) { po with hints := { po.hints with g1 := true } } ++ [o]
              = (acc ++ [{ po with hints := { po.hints with g1 := true } }]) ++ [o] := by
            unfold setLast; simp
          rw [hset] at h
          obtain ⟨o', tl, h1, h2, h3⟩ := ih s o _ r ho2 h
          have hp1 : o'.p1 = o.p1 := by unfold Seg.p1; rw [h2]
          refine ⟨{ po with hints := { po.hints with g1 := true } }, o' :: tl, by rw [h1]; simp, rfl, ?_⟩
          exact .join _ _ _ _ _ _ ho (by rw [hp1]; exact hd) h3
        · obtain ⟨o', tl, h1, h2, h3⟩ := ih s o _ r ho2 h
          have hp1 : o'.p1 = o.p1 := by unfold Seg.p1; rw [h2]
          refine ⟨po, o' :: tl, by rw [h1]; simp, rfl, ?_⟩
          exact .join _ _ _ _ _ _ ho (by rw [hp1]; exact hd) h3

theorem offsetLoop_none {eps : ℝ} (heps : 0 < eps) (g1tol minArc off : ℝ) (path r : Path ℝ)
    (h : offsetLoop eps g1tol minArc off none [] path = .ok r) :
    (longOnes eps path = [] ∧ r = []) ∨ Traced eps off (longOnes eps path) r := by
  induction path with
  | nil => unfold offsetLoop at h; cases h; exact Or.inl ⟨rfl, rfl⟩
  | cons s rest ih =>
    unfold offsetLoop at h
    by_cases hz : s.p1.eq eps s.p2 = true
    · rw [if_pos hz] at h
      have hlo := longOnes_skip hz rest
      rw [hlo]
      exact ih h
    · rw [if_neg hz] at h
      obtain ⟨hlong, hlo⟩ := longOnes_cons hz rest
      obtain ⟨o, hos, h⟩ := bind_ok h
      have ho2 := offsetSeg_spec heps hlong hos
      dsimp only at h
      obtain ⟨o', tl, h1, h2, h3⟩ := offsetLoop_some heps g1tol minArc off rest s o [] r ho2 h
      rw [hlo, h1]
      exact Or.inr h3

/-- Any exception of the loop comes from an unsupported segment. -/
theorem offsetLoop_ok {eps : ℝ} (heps : 0 < eps) (g1tol minArc off : ℝ) (path : Path ℝ)
    (hp : ∀ s ∈ path, LineOrArc s.shape) : ∀ prev acc, ∃ r, offsetLoop eps g1tol minArc off prev acc path = .ok r := by
  induction path with
  | nil => intro prev acc; exact ⟨acc, by unfold offsetLoop; rfl⟩
  | cons s rest ih =>
    intro prev acc
    have ih := ih fun s hs => hp s (List.mem_cons_of_mem _ hs)
    unfold offsetLoop
    by_cases hz : s.p1.eq eps s.p2 = true
    · rw [if_pos hz]; exact ih _ _
    · rw [if_neg hz]
      have hlong : Long eps s := (eq_false_iff eps _ _).1 (by simpa using hz)
      have : ∃ o, offsetSeg s off = .ok o := by
        unfold offsetSeg
        rcases hp s (by simp) with ⟨l, hs⟩ | ⟨a, hs⟩
        · have hpos : 0 < segLen l := by
            unfold segLen
            apply Real.sqrt_pos.2
            have : eps ^ 2 ≤ sqDist l.p1 l.p2 := by
              have := hlong; unfold Long Seg.p1 Seg.p2 at this; rw [hs] at this; exact this
            have := pow_pos heps 2
            linarith
          obtain ⟨v, h1, -⟩ := C58_shift l off hpos
          rw [hs]; dsimp only; rw [h1]; exact ⟨_, rfl⟩
        · rw [hs]; exact ⟨_, rfl⟩
      obtain ⟨o, ho⟩ := this
      rw [ho]
      cases prev with
      | none => exact ih _ _
      | some pp =>
        obtain ⟨ps, po⟩ := pp
        simp only [bind, Except.bind]
        split
        · exact ih _ _
        split
        · exact ih _ _
        · exact ih _ _

/-- **C38** for offsets that are not (close to) zero and paths of lines and arcs with at least one segment of positive
length: `offset_path` returns, and the result consists of the segments of positive length, each moved forward by the offset,
in the input order, with a bridge (a line, or an arc about the corner whose radius is the offset) wherever two of them do not
meet.  Missing: paths without a segment of positive length (`C38_refuted_degenerate`). -/
theorem C38_offset_partial {eps : ℝ} (heps : 0 < eps) (path : Path ℝ) (off minArc : ℝ) (g1tol : Option ℝ)
    (hoff : eps ≤ |off|) (hp : ∀ s ∈ path, LineOrArc s.shape) (hlong : ∃ s ∈ path, Long eps s) :
    ∃ r, offsetPath eps path off minArc g1tol = .ok r ∧ Traced eps off (longOnes eps path) r := by
  obtain ⟨r, hr⟩ := offsetLoop_ok heps (g1tol.getD eps) minArc off path hp none []
  unfold offsetPath
  have h0 : ¬ floatEq eps off zero = true := by rw [floatEq_iff]; simpa using hoff
  rw [if_neg h0, hr]
  rcases offsetLoop_none heps _ _ _ _ _ hr with ⟨h1, -⟩ | ht
  · obtain ⟨s, hs, hl⟩ := hlong
    have : s ∈ longOnes eps path := (longOnes_mem _ _ _).2 ⟨hs, hl⟩
    rw [h1] at this; cases this
  · cases path with
    | nil => obtain ⟨s, hs, -⟩ := hlong; cases hs
    | cons s rest =>
      cases r with
      | nil => exact absurd ht (by generalize longOnes eps (s :: rest) = l; intro h; cases h)
      | cons o tl => exact ⟨_, rfl, ht.head_shape rfl⟩

/-- **C38**: the result is connected — consecutive segments meet within `eps`. -/
theorem C38_connected {eps : ℝ} (heps : 0 < eps) {off : ℝ} {ss r : Path ℝ} (h : Traced eps off ss r) :
    r.IsChain fun a b => sqDist a.p2 b.p1 < eps ^ 2 := by
  have hz : ∀ p : P ℝ, sqDist p p < eps ^ 2 := fun p => by
    have : sqDist p p = 0 := by unfold sqDist; ring
    rw [this]; exact pow_pos heps 2
  induction h with
  | one => simp
  | join s s' o o' ss os h1 h2 h3 ih => exact List.isChain_cons_cons.2 ⟨h2, ih⟩
  | bridge s s' o o' b ss os h1 h2 h3 h4 ih =>
    refine List.isChain_cons_cons.2 ⟨?_, List.isChain_cons_cons.2 ⟨?_, ih⟩⟩
    · rw [h3.1]; exact hz _
    · rw [h3.2.1]; exact hz _

/-- A (numerically) zero offset returns the path itself. -/
theorem C38_zero_offset {eps : ℝ} (path : Path ℝ) (off minArc : ℝ) (g1tol : Option ℝ) (hoff : |off| < eps) :
    offsetPath eps path off minArc g1tol = .ok path := by
  unfold offsetPath
  rw [if_pos ((floatEq_iff eps off zero).2 (by simpa using hoff))]

/-- **C38** is refuted for paths all of whose segments are (numerically) of length zero, for instance a single full circle:
`IndexError`. -/
theorem C38_refuted_degenerate {eps : ℝ} (heps : 0 < eps) (path : Path ℝ) (off minArc : ℝ) (g1tol : Option ℝ)
    (hoff : eps ≤ |off|) (hshort : ∀ s ∈ path, ¬ Long eps s) :
    offsetPath eps path off minArc g1tol = .error .indexError := by
  have hloop : ∀ p : Path ℝ, (∀ s ∈ p, ¬ Long eps s) →
      offsetLoop eps (g1tol.getD eps) minArc off none [] p = .ok [] := by
    intro p hp
    induction p with
    | nil => unfold offsetLoop; rfl
    | cons s rest ih =>
      unfold offsetLoop
      have : s.p1.eq eps s.p2 = true := by
        rw [← Bool.not_eq_false, eq_false_iff]; exact hp s (by simp)
      rw [if_pos this]
      exact ih fun s hs => hp s (List.mem_cons_of_mem _ hs)
  unfold offsetPath
  have h0 : ¬ floatEq eps off zero = true := by rw [floatEq_iff]; simpa using hoff
  rw [if_neg h0, hloop path hshort]
  cases path <;> rfl

/-- Any other kind of segment of positive length raises `ToolpathException`, provided the lines and arcs before it are fine. -/
example : offsetPath (1/1000000 : ℚ) [⟨.bez ⟨⟨0, 0⟩, ⟨1, 0⟩, ⟨2, 0⟩, ⟨3, 0⟩⟩, {}⟩] (1/4) (1/100) = .error .cam := by
  decide +kernel

/-- Witness of the refutation: a full circle. -/
example : ∀ s ∈ [(⟨.arc ⟨⟨1, 0⟩, ⟨1, 0⟩, 1, 2 * Real.pi, ⟨0, 0⟩⟩, {}⟩ : Seg ℝ)], ¬ Long (1/1000000) s := by
  intro s hs
  simp only [List.mem_singleton] at hs
  subst hs
  norm_num [Long, Seg.p1, Seg.p2, Shape.p1, Shape.p2, sqDist]

/-- Non-vacuity: a corner; the bridge is an arc of radius `1/4` about the corner. -/
example : (offsetPath (1/1000000 : ℚ) [⟨.line ⟨⟨0, 0⟩, ⟨1, 0⟩⟩, {}⟩, ⟨.line ⟨⟨1, 0⟩, ⟨1, 2⟩⟩, {}⟩] (1/4) (1/100)).map
    (fun r => r.map Seg.shape)
    = .ok [.line ⟨⟨1/4, 0⟩, ⟨5/4, 0⟩⟩, .arc ⟨⟨5/4, 0⟩, ⟨1, 1/4⟩, 1/4, piRat / 2, ⟨1, 0⟩⟩, .line ⟨⟨1, 1/4⟩, ⟨1, 9/4⟩⟩] := by
  decide +kernel

/-! ## C39 -/

section
variable {K : Type} [PyTrig K]

theorem copyAttrs_ends (a b : Seg K) : (a.copyAttrs b).p1 = b.p1 ∧ (a.copyAttrs b).p2 = b.p2 := ⟨rfl, rfl⟩

/-- Specification: `n1`, `f`, `n2` replace `s1`, `s2`: `f` is an arc from the (moved) end of the first to the (moved) start of
the second segment; the outer ends do not move and the kind of the segments does not change. -/
structure Filleted (s1 s2 n1 f n2 : Seg K) : Prop where
  start : n1.p1 = s1.p1
  join1 : n1.p2 = f.p1
  join2 : f.p2 = n2.p1
  stop : n2.p2 = s2.p2
  arc : ∃ a, f.shape = .arc a
  kind1 : (∀ l, s1.shape = .line l → ∃ l', n1.shape = .line l') ∧
    (∀ a, s1.shape = .arc a → ∃ a', n1.shape = .arc a' ∧ a'.center = a.center ∧ a'.radius = a.radius)
  kind2 : (∀ l, s2.shape = .line l → ∃ l', n2.shape = .line l') ∧
    (∀ a, s2.shape = .arc a → ∃ a', n2.shape = .arc a' ∧ a'.center = a.center ∧ a'.radius = a.radius)
  lineOrArc : LineOrArc s1.shape ∧ LineOrArc s2.shape

theorem createFilletArc_shapes {eps : K} {s1 s2 : Shape K} {r : K} {f : Arc K}
    (h : createFilletArc eps s1 s2 r = .ok (some f)) : LineOrArc s1 ∧ LineOrArc s2 := by
  unfold createFilletArc at h
  split at h
  · exact ⟨Or.inl ⟨_, rfl⟩, Or.inl ⟨_, rfl⟩⟩
  · exact ⟨Or.inl ⟨_, rfl⟩, Or.inr ⟨_, rfl⟩⟩
  · exact ⟨Or.inr ⟨_, rfl⟩, Or.inl ⟨_, rfl⟩⟩
  · exact ⟨Or.inr ⟨_, rfl⟩, Or.inr ⟨_, rfl⟩⟩
  · cases h

theorem connect_spec (eps : K) (s1 s2 : Seg K) (f : Arc K) (g h1 h2 : Hints K)
    (hs : LineOrArc s1.shape ∧ LineOrArc s2.shape) :
    Filleted s1 s2 ⟨connectFirst eps s1.shape f, h1⟩ ⟨.arc f, g⟩ ⟨connectSecond eps f s2.shape, h2⟩ := by
  obtain ⟨sh1, hh1⟩ := s1
  obtain ⟨sh2, hh2⟩ := s2
  obtain ⟨ha, hb⟩ := hs
  dsimp only at ha hb
  rcases ha with ⟨l1, rfl⟩ | ⟨a1, rfl⟩ <;> rcases hb with ⟨l2, rfl⟩ | ⟨a2, rfl⟩ <;>
  · refine ⟨rfl, rfl, rfl, rfl, ⟨_, rfl⟩, ⟨?_, ?_⟩, ⟨?_, ?_⟩, ⟨?_, ?_⟩⟩
    all_goals first
      | (intro x hx; cases hx <;> first | exact ⟨_, rfl⟩ | exact ⟨_, rfl, rfl, rfl⟩)
      | exact Or.inl ⟨_, rfl⟩
      | exact Or.inr ⟨_, rfl⟩

theorem createAdjustedFillet_spec {eps r : K} {adjust mark : Bool} {s1 s2 n1 f n2 : Seg K}
    (h : createAdjustedFillet eps s1 s2 r adjust mark = .ok (some (n1, f, n2))) : Filleted s1 s2 n1 f n2 := by
  unfold createAdjustedFillet at h
  split at h
  · cases h
  · obtain ⟨f?, hf, h⟩ := bind_ok h
    cases f? with
    | none => cases h
    | some fa =>
      dsimp only at h
      split at h <;>
      · obtain ⟨adj, -, h⟩ := bind_ok h
        have h := Option.some.inj (Except.ok.inj h)
        have e1 := congrArg (·.1) h
        have e2 := congrArg (·.2.1) h
        have e3 := congrArg (·.2.2) h
        dsimp only at e1 e2 e3
        rw [← e1, ← e2, ← e3]
        exact connect_spec eps s1 s2 fa _ _ _ (createFilletArc_shapes hf)

/-- Specification: `new` arises from `old` by inserting fillets at junctions, left to right (after a fillet the shortened
second segment takes the place of the original one). -/
inductive FilletSteps : Seg K → Path K → Path K → Prop
  | last (s : Seg K) : FilletSteps s [] [s]
  | keep (s s2 : Seg K) (rest new : Path K) : FilletSteps s2 rest new → FilletSteps s (s2 :: rest) (s :: new)
  | fillet (s s2 n1 f n2 : Seg K) (rest new : Path K) : Filleted s s2 n1 f n2 → FilletSteps n2 rest new →
      FilletSteps s (s2 :: rest) (n1 :: f :: new)

theorem filletLoop_steps {eps r : K} {adjust mark : Bool} (rest : Path K) : ∀ (s : Seg K) (new : Path K),
    filletLoop eps r adjust mark s rest = .ok new → FilletSteps s rest new := by
  induction rest with
  | nil => intro s new h; unfold filletLoop at h; cases h; exact .last s
  | cons s2 rest ih =>
    intro s new h
    unfold filletLoop at h
    obtain ⟨f, hf, h⟩ := bind_ok h
    cases f with
    | none =>
      dsimp only at h
      obtain ⟨tl, ht, h⟩ := bind_ok h
      cases h
      exact .keep _ _ _ _ (ih _ _ ht)
    | some t =>
      obtain ⟨n1, fs, n2⟩ := t
      dsimp only at h
      obtain ⟨tl, ht, h⟩ := bind_ok h
      cases h
      exact .fillet _ _ _ _ _ _ _ (createAdjustedFillet_spec hf) (ih _ _ ht)

/-- What every sequence of fillet insertions preserves. -/
theorem FilletSteps.spec {s : Seg K} {rest new : Path K} (h : FilletSteps s rest new) (R : P K → P K → Prop)
    (hR : ∀ p, R p p) :
    (∃ a tl, new = a :: tl ∧ a.p1 = s.p1) ∧ (∃ z, new.getLast? = some z ∧ z.p2 = ((s :: rest).getLast (by simp)).p2) ∧
    ((s :: rest).IsChain (fun a b => R a.p2 b.p1) → new.IsChain (fun a b => R a.p2 b.p1)) ∧
    (rest.length + 1 ≤ new.length) ∧ (new.length = rest.length + 1 → new = s :: rest) := by
  induction h with
  | last s => exact ⟨⟨s, [], rfl, rfl⟩, ⟨s, rfl, rfl⟩, id, le_refl _, fun _ => rfl⟩
  | keep s s2 rest new h ih =>
    obtain ⟨⟨a, tl, h1, h1'⟩, ⟨z, h2, h2'⟩, h3, h4, h5⟩ := ih
    refine ⟨⟨s, new, rfl, rfl⟩, ⟨z, ?_, ?_⟩, ?_, ?_, ?_⟩
    · rw [h1, List.getLast?_cons_cons, ← h1]; exact h2
    · exact h2'
    · intro hc
      rw [List.isChain_cons_cons] at hc
      have h3 := h3 hc.2
      rw [h1] at h3 ⊢
      rw [List.isChain_cons_cons]
      exact ⟨by rw [h1']; exact hc.1, h3⟩
    · simp only [List.length_cons]; omega
    · intro hl
      simp only [List.length_cons] at hl
      rw [h5 (by omega)]
  | fillet s s2 n1 f n2 rest new hf h ih =>
    obtain ⟨⟨a, tl, h1, h1'⟩, ⟨z, h2, h2'⟩, h3, h4, h5⟩ := ih
    refine ⟨⟨n1, f :: new, rfl, hf.start⟩, ⟨z, ?_, ?_⟩, ?_, ?_, ?_⟩
    · rw [List.getLast?_cons_cons, h1, List.getLast?_cons_cons, ← h1]; exact h2
    · rw [h2']
      cases rest with
      | nil => exact hf.stop
      | cons b rest => rfl
    · intro hc
      rw [List.isChain_cons_cons] at hc
      have hc2 : (n2 :: rest).IsChain (fun a b => R a.p2 b.p1) := by
        cases rest with
        | nil => simp
        | cons b rest =>
          rw [List.isChain_cons_cons] at hc ⊢
          rw [hf.stop]; exact hc.2
      have h3 := h3 hc2
      rw [h1] at h3 ⊢
      rw [List.isChain_cons_cons, List.isChain_cons_cons]
      refine ⟨by rw [hf.join1]; exact hR _, ?_, h3⟩
      rw [h1', hf.join2]; exact hR _
    · simp only [List.length_cons]; omega
    · intro hl
      simp only [List.length_cons] at hl; omega

/-- The closing fillet. -/
theorem filletCloseStep_spec {eps r : K} {adjust mark : Bool} {new res : Path K}
    (h : filletCloseStep eps r adjust mark new = .ok res) (h2 : 2 ≤ new.length) :
    res = new ∨ ∃ (first last n1 f n2 : Seg K) (mid : Path K), new = first :: mid ++ [last] ∧ Filleted last first n1 f n2 ∧
      res = n2 :: mid ++ [n1, f] := by
  cases new with
  | nil => simp at h2
  | cons first tl =>
    unfold filletCloseStep at h
    have hne : tl ≠ [] := by rintro rfl; simp at h2
    have hl : (first :: tl).getLast? = some (tl.getLast hne) := by
      rw [List.getLast?_eq_some_getLast (by simp), List.getLast_cons hne]
    rw [hl] at h
    dsimp only at h
    obtain ⟨f, hf, h⟩ := bind_ok h
    cases f with
    | none => cases h; exact Or.inl rfl
    | some t =>
      obtain ⟨n1, fs, n2⟩ := t
      dsimp only at h
      refine Or.inr ⟨first, tl.getLast hne, n1, fs, n2, tl.dropLast, ?_, createAdjustedFillet_spec hf, ?_⟩
      · rw [List.cons_append, List.dropLast_append_getLast]
      · have : setLast (first :: tl) n1 ++ [fs] = first :: (tl.dropLast ++ [n1, fs]) := by
          unfold setLast
          rw [List.dropLast_cons_of_ne_nil hne]; simp
        rw [this] at h
        cases h; rfl

/-- **C39**: whenever `fillet_path` returns, it either returns the path itself (always if the radius is below `EPSILON` or
there are fewer than two segments) or a longer path obtained by inserting fillets at junctions between adjacent segments —
and, if asked to and the path is closed and has more than two segments, at the closing junction.  For every reflexive notion of
"meets" (exact equality, or equality up to the tolerance): if consecutive segments of the path meet, so do those of the
result.  If the path is not closed or closing was not asked for, the first start point and the last end point are kept. -/
theorem C39_fillet {eps r : K} {close adjust mark : Bool} {path res : Path K}
    (h : filletPath eps path r close adjust mark = .ok res) (R : P K → P K → Prop) (hR : ∀ p, R p p) :
    (path.IsChain (fun a b => R a.p2 b.p1) → res.IsChain (fun a b => R a.p2 b.p1)) ∧
    (path.length ≤ res.length) ∧ (res.length = path.length → res = path) ∧
    (close = false ∨ pathClosed eps path = false →
      res.head?.map Seg.p1 = path.head?.map Seg.p1 ∧ res.getLast?.map Seg.p2 = path.getLast?.map Seg.p2) := by
  have same : ∀ q : Path K, q = path →
      (path.IsChain (fun a b => R a.p2 b.p1) → q.IsChain (fun a b => R a.p2 b.p1)) ∧
      (path.length ≤ q.length) ∧ (q.length = path.length → q = path) ∧
      (close = false ∨ pathClosed eps path = false →
        q.head?.map Seg.p1 = path.head?.map Seg.p1 ∧ q.getLast?.map Seg.p2 = path.getLast?.map Seg.p2) := by
    rintro q rfl; exact ⟨id, le_refl _, fun _ => rfl, fun _ => ⟨rfl, rfl⟩⟩
  unfold filletPath at h
  split at h
  · cases h; exact same _ rfl
  · rename_i hc
    cases path with
    | nil => cases h; exact same _ rfl
    | cons s rest =>
      dsimp only at h
      obtain ⟨new, hn, h⟩ := bind_ok h
      obtain ⟨⟨a, tl, h1, h1'⟩, ⟨z, h2, h2'⟩, h3, h4, h5⟩ := (filletLoop_steps _ _ _ hn).spec R hR
      have hlast : (s :: rest).getLast? = some ((s :: rest).getLast (by simp)) := List.getLast?_eq_some_getLast _
      obtain ⟨new2, hn2, h⟩ : ∃ new2, (((close && decide (2 < (s :: rest).length) && pathClosed eps (s :: rest)) = true ∧
          filletCloseStep eps r adjust mark new = .ok new2) ∨ new2 = new) ∧
          (pure (if (s :: rest).length < new2.length then new2 else s :: rest) : Except PyErr (Path K)) = .ok res := by
        split at h
        · rename_i hcl
          obtain ⟨new2, hn2, h⟩ := bind_ok h
          exact ⟨new2, Or.inl ⟨hcl, hn2⟩, h⟩
        · exact ⟨new, Or.inr rfl, h⟩
      have h2len : 2 ≤ new.length := by
        simp only [List.length_cons, Bool.or_eq_true, decide_eq_true_eq, not_or] at hc; omega
      -- the path before the final choice
      have key : (((s :: rest).IsChain (fun a b => R a.p2 b.p1) → new2.IsChain (fun a b => R a.p2 b.p1)) ∧
          (close = false ∨ pathClosed eps (s :: rest) = false → new2 = new)) := by
        rcases hn2 with ⟨hcl, hn2⟩ | rfl
        · rcases filletCloseStep_spec hn2 h2len with rfl | ⟨first, last, n1, f, n2, mid, e1, hf, e2⟩
          · exact ⟨h3, fun _ => rfl⟩
          · refine ⟨?_, ?_⟩
            · intro hch
              have h3 := h3 hch
              rw [e1] at h3
              rw [e2]
              have hm : (n2 :: mid).IsChain (fun a b => R a.p2 b.p1) := by
                have h3 := (List.isChain_append.1 h3).1
                cases mid with
                | nil => simp
                | cons b mid =>
                  rw [List.isChain_cons_cons] at h3 ⊢
                  rw [hf.stop]; exact h3
              rw [List.isChain_append]
              refine ⟨hm, ?_, ?_⟩
              · rw [List.isChain_cons_cons]
                exact ⟨by rw [hf.join1]; exact hR _, by simp⟩
              · intro x hx y hy
                simp only [List.head?_cons, Option.mem_def, Option.some.injEq] at hy
                subst hy
                have h3 := (List.isChain_append.1 h3).2.2
                rw [hf.start]
                cases mid with
                | nil =>
                  simp only [List.getLast?_singleton, Option.mem_def, Option.some.injEq] at hx
                  subst hx
                  have := h3 first (by simp) last (by simp)
                  rw [hf.stop]; exact this
                | cons b mid =>
                  rw [List.getLast?_cons_cons] at hx
                  exact h3 x (by rw [List.getLast?_cons_cons]; exact hx) last (by simp)
            · intro hh
              simp only [Bool.and_eq_true] at hcl
              rcases hh with hh | hh
              · rw [hh] at hcl; simp at hcl
              · rw [hh] at hcl; simp at hcl
        · exact ⟨h3, fun _ => rfl⟩
      split at h
      · rename_i hlt
        cases h
        refine ⟨key.1, by omega, ?_, ?_⟩
        · intro he; omega
        · intro hh
          rw [key.2 hh, h1]
          refine ⟨by simp [h1'], ?_⟩
          rw [← h1, h2, hlast]; simp [h2']
      · cases h; exact same _ rfl

/-- **C39**: without closing, the result is the path with fillets inserted between adjacent segments only. -/
theorem C39_only_between_adjacent {eps r : K} {adjust mark : Bool} {s : Seg K} {rest res : Path K}
    (h : filletPath eps (s :: rest) r false adjust mark = .ok res) :
    res = s :: rest ∨ FilletSteps s rest res := by
  unfold filletPath at h
  split at h
  · cases h; exact Or.inl rfl
  · dsimp only at h
    obtain ⟨new, hn, h⟩ := bind_ok h
    rw [if_neg (by simp)] at h
    replace h : (pure (if (s :: rest).length < new.length then new else s :: rest) : Except PyErr (Path K)) = .ok res := h
    split at h
    · cases h; exact Or.inr (filletLoop_steps _ _ _ hn)
    · cases h; exact Or.inl rfl

end

/-- **C39**: a closed path stays closed, with or without a closing fillet. -/
theorem C39_closed {eps r : ℝ} (heps : 0 < eps) {close adjust mark : Bool} {path res : Path ℝ}
    (h : filletPath eps path r close adjust mark = .ok res) (hc : pathClosed eps path = true) :
    pathClosed eps res = true := by
  have hrefl : ∀ p : P ℝ, p.eq eps p = true := fun p => by
    rw [eq_iff]
    have : sqDist p p = 0 := by unfold sqDist; ring
    rw [this]; exact pow_pos heps 2
  unfold filletPath at h
  split at h
  · cases h; exact hc
  · rename_i hcond
    cases path with
    | nil => cases h; exact hc
    | cons s rest =>
      dsimp only at h
      obtain ⟨new, hn, h⟩ := bind_ok h
      obtain ⟨⟨a, tl, h1, h1'⟩, ⟨z, h2, h2'⟩, -, h4, -⟩ := (filletLoop_steps _ _ _ hn).spec Eq (fun _ => rfl)
      have hnew : pathClosed eps new = true := by
        unfold pathClosed at hc ⊢
        rw [List.getLast?_eq_some_getLast (by simp)] at hc
        rw [h2, h1]
        dsimp only [List.head?_cons] at hc ⊢
        rw [h1', h2']; exact hc
      obtain ⟨new2, hn2, h⟩ : ∃ new2, (filletCloseStep eps r adjust mark new = .ok new2 ∨ new2 = new) ∧
          (pure (if (s :: rest).length < new2.length then new2 else s :: rest) : Except PyErr (Path ℝ)) = .ok res := by
        split at h
        · rename_i hcl
          obtain ⟨new2, hn2, h⟩ := bind_ok h
          exact ⟨new2, Or.inl hn2, h⟩
        · exact ⟨new, Or.inr rfl, h⟩
      have h2len : 2 ≤ new.length := by
        simp only [List.length_cons, Bool.or_eq_true, decide_eq_true_eq, not_or] at hcond; omega
      have hclosed : pathClosed eps new2 = true := by
        rcases hn2 with hn2 | rfl
        · rcases filletCloseStep_spec hn2 h2len with rfl | ⟨first, last, n1, f, n2, mid, e1, hf, e2⟩
          · exact hnew
          · have hl : (n2 :: mid ++ [n1, f]).getLast? = some f := by
              rw [List.getLast?_append]; rfl
            unfold pathClosed
            rw [e2, hl]
            dsimp only [List.head?_cons, List.cons_append]
            rw [hf.join2]; exact hrefl _
        · exact hnew
      split at h
      · cases h; exact hclosed
      · cases h; exact hc

/-- Non-vacuity: a right angle gets a fillet of radius 1. -/
example : (filletPath (1/1000000 : ℚ) [⟨.line ⟨⟨0, 0⟩, ⟨4, 0⟩⟩, {}⟩, ⟨.line ⟨⟨4, 0⟩, ⟨4, 4⟩⟩, {}⟩] 1 true false true).map
    (fun r => r.map Seg.shape)
    = .ok [.line ⟨⟨0, 0⟩, ⟨3, 0⟩⟩, .arc ⟨⟨3, 0⟩, ⟨4, 1⟩, 1, piRat / 2, ⟨3, 1⟩⟩, .line ⟨⟨4, 1⟩, ⟨4, 4⟩⟩] := by
  decide +kernel

/-- Non-vacuity: no fillet of radius 10 fits. -/
example : filletPath (1/1000000 : ℚ) [⟨.line ⟨⟨0, 0⟩, ⟨4, 0⟩⟩, {}⟩, ⟨.line ⟨⟨4, 0⟩, ⟨4, 4⟩⟩, {}⟩] 10 true false true
    = .ok [⟨.line ⟨⟨0, 0⟩, ⟨4, 0⟩⟩, {}⟩, ⟨.line ⟨⟨4, 0⟩, ⟨4, 4⟩⟩, {}⟩] := by
  decide +kernel

/-- Non-vacuity: a closed square gets four fillets. -/
example : (filletPath (1/1000000 : ℚ) [⟨.line ⟨⟨0, 0⟩, ⟨4, 0⟩⟩, {}⟩, ⟨.line ⟨⟨4, 0⟩, ⟨4, 4⟩⟩, {}⟩,
    ⟨.line ⟨⟨4, 4⟩, ⟨0, 4⟩⟩, {}⟩, ⟨.line ⟨⟨0, 4⟩, ⟨0, 0⟩⟩, {}⟩] 1 true false true).map List.length = .ok 8 := by
  decide +kernel

end Verif.Cam
