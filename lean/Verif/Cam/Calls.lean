import Verif.Cam.Settings
import Verif.Cam.Props1
import Verif.GCode.Props5

/-!
# The calls of a whole run of `generate_gcode`

Whatever the paths and settings are and however the run ends, the CAM object only makes the calls listed in `CamCall`.
-/

set_option linter.unusedSectionVars false

namespace Verif.Cam
open Verif PyFloat PyTrig Geom GCode

variable {K : Type} [PyTrig K]

/-- The calls a CAM object makes on the generator. -/
def CamCall : Call K → Prop
  | .addHeaderComment _ | .header .. | .rapidMove .. | .feed .. | .feedArc .. | .comment .. | .footer => True
  | .toolUp _ w _ => w = none
  | .toolDown _ _ w _ => w = none
  | _ => False

/-- From `s` the state `s'` is reached by calls of the given kind. -/
def Reach (P : Call K → Prop) (s s' : Cam K) : Prop := ∃ cs, Extends s cs s' ∧ ∀ c ∈ cs, P c

theorem Reach.refl (P : Call K → Prop) (s : Cam K) : Reach P s s := ⟨[], Extends.refl s, by simp⟩

theorem Reach.trans {P : Call K → Prop} {s t u : Cam K} (h : Reach P s t) (h' : Reach P t u) : Reach P s u := by
  obtain ⟨a, ha, hpa⟩ := h
  obtain ⟨b, hb, hpb⟩ := h'
  refine ⟨a ++ b, ha.trans hb, ?_⟩
  intro c hc
  rcases List.mem_append.1 hc with hc | hc
  · exact hpa c hc
  · exact hpb c hc

theorem reach_emit {P : Call K → Prop} (s : Cam K) (c : Call K) (hc : P c) : Reach P s (s.emit c) := by
  cases h : s.err with
  | some er => rw [emit_of_err _ _ (by rw [h]; rfl)]; exact Reach.refl P s
  | none => exact ⟨[c], emit_ext h, by simpa using hc⟩

theorem reach_raise (P : Call K → Prop) (s : Cam K) (er : PyErr) : Reach P s (s.raise er) := by
  unfold Cam.raise
  split
  · exact Reach.refl P s
  · exact ⟨[], ⟨by simp, rfl, fun h => by simp at h⟩, by simp⟩

/-- Changing only the bookkeeping of the CAM object. -/
theorem reach_of_eq (P : Call K → Prop) (s s' : Cam K) (h : s'.trace = s.trace) (h' : s'.gen = s.gen)
    (h'' : s'.err = none → s.err = none) : Reach P s s' :=
  ⟨[], ⟨by simp [h], h', fun hn => ⟨h'' hn, trivial⟩⟩, by simp⟩

theorem reach_foldl {α : Type} {P : Call K → Prop} (f : Cam K → α → Cam K) (hf : ∀ s a, Reach P s (f s a)) (l : List α) (s : Cam K) :
    Reach P s (l.foldl f s) := by
  induction l generalizing s with
  | nil => exact Reach.refl P s
  | cons a l ih => exact (hf s a).trans (ih _)

theorem reach_turnTo (e : Env K) (o : Opts K) (s : Cam K) (seg : Seg K) : Reach CamCall s (s.turnTo e o seg).1 := by
  unfold Cam.turnTo
  split
  · exact Reach.refl _ _
  · dsimp only
    split
    · exact Reach.refl _ _
    · exact (reach_of_eq _ s { s with angle := s.angle +. calcRotation e.eps s.angle (Seg.startAngle e.eps seg) } rfl rfl id).trans (reach_emit _ _ trivial)

theorem reach_feedSeg (e : Env K) (s : Cam K) (seg : Seg K) (ea d : K) : Reach CamCall s (s.feedSeg e seg ea d) := by
  unfold Cam.feedSeg
  dsimp only
  split
  · exact reach_emit _ _ trivial
  · split
    · split
      · exact reach_emit _ _ trivial
      · exact reach_emit _ _ trivial
    · exact reach_raise _ _ _
  · exact Reach.refl _ _

theorem reach_genSegment (e : Env K) (o : Opts K) (d : K) (s : Cam K) (seg : Seg K) : Reach CamCall s (s.genSegment e o d seg) := by
  unfold Cam.genSegment
  split
  · exact Reach.refl _ _
  · dsimp only
    have h := ((reach_of_eq CamCall s { s with dist := s.dist +. seg.length e } rfl rfl id).trans (reach_turnTo e o _ seg)).trans
      (reach_feedSeg e _ seg (Cam.turnTo e o { s with dist := s.dist +. seg.length e } seg).2 (seg.hints.z.getD d))
    split
    · exact h
    · exact h.trans (reach_of_eq _ _ _ rfl rfl id)

theorem reach_rapidTo (e : Env K) (o : Opts K) (s : Cam K) (f : Seg K) : Reach CamCall s (s.rapidTo e o f) := by
  unfold Cam.rapidTo
  split
  · exact Reach.refl _ _
  · dsimp only
    split
    · exact (reach_of_eq _ s { s with angle := s.angle +. calcRotation e.eps s.angle (Seg.startAngle e.eps f) } rfl rfl id).trans (reach_emit _ _ trivial)
    · exact reach_emit _ _ trivial

theorem reach_genRapid (e : Env K) (o : Opts K) (s : Cam K) (f : Seg K) : Reach CamCall s (s.genRapid e o f) := by
  unfold Cam.genRapid
  split
  · split
    · exact reach_raise _ _ _
    · exact reach_rapidTo _ _ _ _
  · exact reach_rapidTo _ _ _ _

theorem reach_genPath (e : Env K) (o : Opts K) (d : K) (n : Nat) (s : Cam K) (p : Nat × Path K) : Reach CamCall s (s.genPath e o d n p) := by
  unfold Cam.genPath
  split
  · exact Reach.refl _ _
  · split
    · dsimp only
      refine Reach.trans ?_ (reach_foldl _ (reach_genSegment e o d) _ _)
      refine Reach.trans ?_ (reach_emit _ _ trivial)
      refine Reach.trans ?_ (reach_emit _ _ rfl)
      refine Reach.trans ?_ (reach_genRapid e o _ _)
      exact (reach_emit s _ trivial).trans (reach_emit _ _ trivial)
    · exact Reach.refl _ _

theorem reach_genPass (e : Env K) (o : Opts K) (paths : List (Path K)) (d : K) (n : Nat) (s : Cam K) :
    Reach CamCall s (s.genPass e o paths d n) := reach_foldl _ (reach_genPath e o d n) _ _

theorem reach_depthLoop {e : Env K} {o : Opts K} {paths : List (Path K)} {n : Nat} {d : K} {s s' : Cam K} {ds : List K}
    (h : DepthLoop e o paths n d s ds s') : Reach CamCall s s' := by
  induction h with
  | done => exact Reach.refl _ _
  | raised n d s _ _ => exact reach_genPass e o paths d n s
  | pass n d s ds s' _ _ _ ih => exact (reach_genPass e o paths d n s).trans ih

theorem reach_start (e : Env K) (s : Cam K) (paths : List (Path K)) : Reach CamCall s (s.start e paths) :=
  ((reach_emit s _ trivial).trans (reach_emit _ _ trivial)).trans (reach_emit _ _ rfl)

theorem reach_finish (o : Opts K) (s : Cam K) : Reach CamCall s (s.finish o) := by
  unfold Cam.finish
  dsimp only
  refine Reach.trans ?_ (reach_emit _ _ trivial)
  split
  · exact (reach_emit (P := CamCall) s (.toolUp true none none) rfl).trans (reach_emit _ _ trivial)
  · exact reach_emit s _ rfl

/-- All calls of a run are `CamCall`s. -/
theorem generate_calls {e : Env K} {o : Opts K} {l : List (Path K)} {s s' : Cam K} {ds : List K} (h : Generate e o l s ds s') :
    Reach CamCall s s' := by
  cases h with
  | fails er => exact reach_raise _ _ _
  | noStart paths => exact reach_start e s paths
  | runs paths ds s1 _ _ hl => exact ((reach_start e s paths).trans (reach_depthLoop hl)).trans (reach_finish o s1)

theorem CamCall.trackable {c : Call K} (h : CamCall c) : Trackable c := by
  cases c <;> first | exact trivial | exact h.elim

theorem CamCall.config {c : Call K} (h : CamCall c) : c.isConfig = true → ∃ t, c = .addHeaderComment t := by
  intro hc
  cases c <;> first | exact ⟨_, rfl⟩ | exact h.elim | cases hc

end Verif.Cam
