import Verif.Cam.Model
import Verif.Geom.Props1

/-!
# Structure of a code generation run: what each step adds to the call trace
-/

set_option linter.unusedSectionVars false

namespace Verif.Cam
open Verif PyFloat PyTrig Geom GCode

section
variable {K : Type} [PyTrig K]

/-- Specification: the calls are made one after the other and none of them raises an exception. -/
def AllOk (g : Gen K) : List (Call K) → Prop
  | [] => True
  | c :: cs => (g.step c).2 = none ∧ AllOk (g.step c).1 cs

/-- Specification: `s'` extends `s` by the calls `cs`, and its generator state is the result of making those calls; if there is no exception
at the end there was none before. -/
structure Extends (s : Cam K) (cs : List (Call K)) (s' : Cam K) : Prop where
  trace : s'.trace = s.trace ++ cs
  gen : s'.gen = s.gen.run cs
  ok : s'.err = none → s.err = none ∧ AllOk s.gen cs

theorem run_append (g : Gen K) (a b : List (Call K)) : g.run (a ++ b) = (g.run a).run b := by
  induction a generalizing g with
  | nil => rfl
  | cons c a ih => exact ih _

theorem AllOk.append {g : Gen K} {a b : List (Call K)} (h : AllOk g a) (h' : AllOk (g.run a) b) : AllOk g (a ++ b) := by
  induction a generalizing g with
  | nil => exact h'
  | cons c a ih => exact ⟨h.1, ih h.2 h'⟩

theorem AllOk.split {g : Gen K} {a b : List (Call K)} {c : Call K} (h : AllOk g (a ++ c :: b)) : ((g.run a).step c).2 = none := by
  induction a generalizing g with
  | nil => exact h.1
  | cons c' a ih => exact ih h.2

theorem Extends.refl (s : Cam K) : Extends s [] s := ⟨by simp, rfl, fun h => ⟨h, trivial⟩⟩

theorem Extends.trans {s t u : Cam K} {a b : List (Call K)} (h : Extends s a t) (h' : Extends t b u) :
    Extends s (a ++ b) u := by
  refine ⟨by rw [h'.1, h.1, List.append_assoc], by rw [h'.2, h.2, run_append], fun hu => ?_⟩
  obtain ⟨ht, hb⟩ := h'.ok hu
  obtain ⟨hs, ha⟩ := h.ok ht
  exact ⟨hs, ha.append (by rw [← h.2]; exact hb)⟩

theorem emit_of_err (s : Cam K) (c : Call K) (h : s.err.isSome) : s.emit c = s := by simp [Cam.emit, h]

theorem emit_err_none {s : Cam K} {c : Call K} (h : (s.emit c).err = none) : s.err = none := by
  unfold Cam.emit at h
  split at h
  · exact h
  · rename_i h'; simpa using h'

theorem emit_eq {s : Cam K} {c : Call K} (h : s.err = none) :
    s.emit c = { s with gen := (s.gen.step c).1, trace := s.trace ++ [c], err := (s.gen.step c).2 } := by
  simp [Cam.emit, h]

theorem emit_ext {s : Cam K} {c : Call K} (h : s.err = none) : Extends s [c] (s.emit c) := by
  rw [emit_eq h]; exact ⟨rfl, rfl, fun h' => ⟨h, h', trivial⟩⟩

theorem emit_angle (s : Cam K) (c : Call K) : (s.emit c).angle = s.angle := by unfold Cam.emit; split <;> rfl
theorem emit_dist (s : Cam K) (c : Call K) : (s.emit c).dist = s.dist := by unfold Cam.emit; split <;> rfl

theorem raise_err (s : Cam K) (e : PyErr) : (s.raise e).err ≠ none := by
  unfold Cam.raise
  split
  · rename_i h; intro h'; rw [h'] at h; simp at h
  · simp

/-- A feed on the generator never raises. -/
theorem feed_no_err (g : Gen K) (x y z a f : Option K) (c : Option Str) : (g.step (.feed x y z a f c)).2 = none := rfl

/-- Specification: the call that cuts segment `seg` down at `z` with the A axis at `a`: a straight feed or an arc feed to the
segment's end point. -/
def CutCall (seg : Seg K) (z a : K) (c : Call K) : Prop :=
  c = .feed (some seg.p2.x) (some seg.p2.y) (some z) (some a) none none ∨
  ∃ arc, seg.shape = .arc arc ∧ c = .feedArc arc.isClockwise arc.p2.x arc.p2.y (arc.center.sub arc.p1).x
    (arc.center.sub arc.p1).y (some a) (some z) none none

/-- A line or an arc. -/
def Seg.Simple (s : Seg K) : Prop := (∃ l, s.shape = .line l) ∨ ∃ a, s.shape = .arc a

theorem feedSeg_spec (e : Env K) (s : Cam K) (seg : Seg K) (ea d : K) (hs : seg.Simple)
    (h : (s.feedSeg e seg ea d).err = none) :
    s.err = none ∧ ∃ c, CutCall seg d ea c ∧ s.feedSeg e seg ea d = s.emit c := by
  unfold Cam.feedSeg at h ⊢
  rcases hs with ⟨l, hl⟩ | ⟨a, ha⟩
  · rw [hl] at h ⊢
    exact ⟨emit_err_none h, _, Or.inl rfl, rfl⟩
  · rw [ha] at h ⊢
    dsimp only at h ⊢
    split at h
    · split at h
      · rename_i h1
        rw [if_pos h1]
        exact ⟨emit_err_none h, _, Or.inr ⟨a, ha, rfl⟩, rfl⟩
      · rename_i h1
        rw [if_neg h1]
        exact ⟨emit_err_none h, _, Or.inl rfl, rfl⟩
    · exact absurd h (raise_err _ _)

theorem feedSeg_angle (e : Env K) (s : Cam K) (seg : Seg K) (ea d : K) : (s.feedSeg e seg ea d).angle = s.angle ∧
    (s.feedSeg e seg ea d).dist = s.dist := by
  unfold Cam.feedSeg
  split
  · exact ⟨emit_angle _ _, emit_dist _ _⟩
  · split
    · dsimp only; split <;> exact ⟨emit_angle _ _, emit_dist _ _⟩
    · unfold Cam.raise; split <;> exact ⟨rfl, rfl⟩
  · exact ⟨rfl, rfl⟩

/-- Specification: the A axis turn made before a segment: nothing, or one feed of the A axis alone. -/
def TurnCalls (s : Cam K) (a1 : K) (cs : List (Call K)) : Prop :=
  (cs = [] ∧ a1 = s.angle) ∨ cs = [.feed none none none (some a1) none none]

theorem turnTo_spec (e : Env K) (o : Opts K) (s : Cam K) (seg : Seg K) (h : s.err = none) :
    ∃ cs, Extends s cs (s.turnTo e o seg).1 ∧ TurnCalls s (s.turnTo e o seg).1.angle cs ∧
      (s.turnTo e o seg).1.err = none ∧ (s.turnTo e o seg).1.dist = s.dist := by
  unfold Cam.turnTo
  split
  · exact ⟨[], Extends.refl _, Or.inl ⟨rfl, rfl⟩, h, rfl⟩
  · dsimp only
    split
    · exact ⟨[], Extends.refl _, Or.inl ⟨rfl, rfl⟩, h, rfl⟩
    · refine ⟨[.feed none none none (some (s.angle +. calcRotation e.eps s.angle (seg.startAngle e.eps))) none none],
        ?_, ?_, ?_, ?_⟩
      · have := emit_ext (s := { s with angle := s.angle +. calcRotation e.eps s.angle (seg.startAngle e.eps) })
          (c := .feed none none none (some (s.angle +. calcRotation e.eps s.angle (seg.startAngle e.eps))) none none) h
        exact ⟨this.1, this.2, this.ok⟩
      · right; rw [emit_angle]
      · rw [emit_eq (by exact h)]; rfl
      · rw [emit_dist]

/-- Everything a successful `generate_segment_gcode` does: an optional A turn to `a1`, then one cutting call. -/
theorem genSegment_spec (e : Env K) (o : Opts K) (d : K) (s : Cam K) (seg : Seg K) (hs : seg.Simple)
    (h : (s.genSegment e o d seg).err = none) :
    s.err = none ∧ ∃ cs c a1, TurnCalls s a1 cs ∧ CutCall seg (seg.hints.z.getD d) (s.genSegment e o d seg).angle c ∧
      Extends s (cs ++ [c]) (s.genSegment e o d seg) ∧
      (s.genSegment e o d seg).dist = s.dist +. seg.length e ∧
      a1 = (s.turnTo e o seg).1.angle ∧ (s.genSegment e o d seg).angle = (s.turnTo e o seg).2 := by
  unfold Cam.genSegment at h ⊢
  by_cases he : s.err.isSome
  · rw [if_pos he] at h; rw [h] at he; simp at he
  have he' : s.err = none := by simpa using he
  rw [if_neg he] at h ⊢
  dsimp only at h ⊢
  obtain ⟨cs, hext, ht, hte, htd⟩ := turnTo_spec e o { s with dist := s.dist +. seg.length e } seg he'
  have hturn : ({ s with dist := s.dist +. seg.length e } : Cam K).turnTo e o seg =
      ({ (s.turnTo e o seg).1 with dist := s.dist +. seg.length e }, (s.turnTo e o seg).2) := by
    unfold Cam.turnTo
    split
    · rfl
    · dsimp only
      split
      · rfl
      · unfold Cam.emit; dsimp only; split <;> rfl
  generalize hT : ({ s with dist := s.dist +. seg.length e } : Cam K).turnTo e o seg = T at *
  have hT2 : T.2 = (s.turnTo e o seg).2 := by rw [hturn]
  have hT1 : T.1.angle = (s.turnTo e o seg).1.angle := by rw [hturn]
  have hfe : (T.1.feedSeg e seg T.2 (seg.hints.z.getD d)).err = none := by
    split at h
    · exact h
    · rename_i h1; simpa using h1
  obtain ⟨-, c, hc, hcE⟩ := feedSeg_spec e T.1 seg T.2 _ hs hfe
  have hn : ¬ ((T.1.feedSeg e seg T.2 (seg.hints.z.getD d)).err.isSome = true) := by rw [hfe]; simp
  rw [if_neg hn]
  refine ⟨he', cs, c, T.1.angle, ht, hc, ?_, ?_, hT1, hT2⟩
  · have := Extends.trans hext (emit_ext (c := c) hte)
    rw [hcE]
    exact ⟨this.1, this.2, this.ok⟩
  · dsimp only
    rw [hcE, emit_dist, htd]

theorem foldl_genSegment_err {e : Env K} {o : Opts K} {d : K} {p : Path K} {s : Cam K}
    (h : (p.foldl (Cam.genSegment e o d) s).err = none) : s.err = none := by
  induction p generalizing s with
  | nil => exact h
  | cons seg p ih =>
    have h1 := ih h
    unfold Cam.genSegment at h1
    by_cases he : s.err.isSome
    · rw [if_pos he] at h1; exact h1
    · simpa using he

theorem rapidTo_spec {e : Env K} {o : Opts K} {s : Cam K} {f : Seg K} (h : s.err = none) :
    Extends s [.rapidMove (some f.p1.x) (some f.p1.y) none (some (s.rapidTo e o f).angle) none] (s.rapidTo e o f) ∧
    (s.rapidTo e o f).err = none ∧ (s.rapidTo e o f).dist = s.dist := by
  unfold Cam.rapidTo
  rw [if_neg (by simp [h])]
  dsimp only
  rw [emit_angle]
  split
  · refine ⟨?_, ?_, emit_dist _ _⟩
    · have := emit_ext (s := { s with angle := s.angle +. calcRotation e.eps s.angle (Seg.startAngle e.eps f) })
        (c := .rapidMove (some f.p1.x) (some f.p1.y) none
          (some (s.angle +. calcRotation e.eps s.angle (Seg.startAngle e.eps f))) none) h
      exact ⟨this.1, this.2, this.ok⟩
    rw [emit_eq (by exact h)]; rfl
  · refine ⟨emit_ext h, ?_, emit_dist _ _⟩
    rw [emit_eq h]; rfl

theorem genRapid_spec {e : Env K} {o : Opts K} {s : Cam K} {f : Seg K} (h : (s.genRapid e o f).err = none) :
    s.err = none ∧
    Extends s [.rapidMove (some f.p1.x) (some f.p1.y) none (some (s.genRapid e o f).angle) none] (s.genRapid e o f) ∧
    (s.genRapid e o f).dist = s.dist ∧ s.genRapid e o f = s.rapidTo e o f := by
  have hcase : s.genRapid e o f = s.rapidTo e o f := by
    unfold Cam.genRapid at h ⊢
    split at h
    · split at h
      · exact absurd h (raise_err _ _)
      · rename_i h1; rw [if_neg h1]
    · rfl
  rw [hcase] at h ⊢
  have hs : s.err = none := by
    unfold Cam.rapidTo at h
    by_cases he : s.err.isSome
    · rw [if_pos he] at h; exact h
    · simpa using he
  have := rapidTo_spec (e := e) (o := o) (f := f) hs
  exact ⟨hs, this.1, this.2.2, rfl⟩

end
end Verif.Cam
