import Verif.Cam.Props37
import Verif.Cam.Props24

/-!
# C189: the repair of smoothness after the trail offset
-/

set_option linter.unusedSectionVars false

namespace Verif.Cam
open Verif Verif.Geom PyFloat PyTrig

theorem prepare_repair {K : Type} [PyTrig K] (e : Env K) (o : Opts K) (ho : Plain { o with toolOffset := false }) (hon : o.toolOffset = true) (tol : K) (l : List (Path K))
    (hl : ∀ p ∈ l, SimplePath p) (hw : (zero <. o.trailOffset) = true) (hg : o.preserveG1 = true) :
    prepare e o tol l = (do let m ← l.mapM fun p => offsetPath e.eps p o.trailOffset o.lineFlatness
                            m.mapM (fixG1Path e.eps o.biarcTol o.lineFlatness) : Except PyErr (List (Path K))) := by
  rw [prepare_stages e o ho.sort ho.brush]
  unfold preprocessSimple
  rw [mapM_preFirst_plain e o ho.fillet ho.split l hl, hon, hw, hg, show o.smoothFillet = false from ho.smooth]
  simp only [bind, Except.bind, pure, Except.pure]
  rw [flatten_singles]
  generalize (l.mapM fun p => offsetPath e.eps p o.trailOffset o.lineFlatness) = m
  cases m with
  | error x => rfl
  | ok m =>
    simp only [Bool.and_self, if_true]
    generalize m.mapM (fixG1Path e.eps o.biarcTol o.lineFlatness) = k
    cases k <;> rfl

/-- Specification: a repaired path: its hinted segments are replaced as described in C119 (`Item.Good`, `Item.Joins`), all others stay; a path of less than two segments stays as it is. -/
def Repaired (eps tol flat : ℝ) (q p : Path ℝ) : Prop :=
  (q.length < 2 ∧ p = q) ∨ ∃ is : List Item, is.map Item.seg = q ∧ p = is.flatMap Item.out ∧ (∀ i ∈ is, i.Good eps tol flat) ∧
    ((∀ s ∈ q, Proper eps s.shape) → List.IsChain (fun s t : Seg ℝ => Rounds eps 1 s.shape t.shape) q → List.IsChain Item.Joins is)

theorem fix_repaired {eps tol flat : ℝ} (heps : 0 < eps) (he : eps ≤ 1 / 14) {q p : Path ℝ} (h : fixG1Path eps tol flat q = .ok p) : Repaired eps tol flat q p := by
  by_cases h2 : 2 ≤ q.length
  · exact .inr (C119_replaced_partial eps tol flat heps he q p h2 h)
  · refine .inl ⟨by omega, ?_⟩
    rw [C119_unhinted eps tol flat q (.inl (by omega))] at h
    exact (Except.ok.inj h).symm

/-- **C189**, the trail offset with the repair of smoothness: whatever paths are cut, they are the given ones in order, each moved forward by the offset of the tool (`Traced`) and then repaired.  Missing: the absence
of errors in the repair (see C95, C119). -/
theorem C189_repaired_partial (e : Env ℝ) (heps : 0 < e.eps) (he : e.eps ≤ 1 / 14) (o : Opts ℝ) (ho : Plain { o with toolOffset := false }) (hon : o.toolOffset = true) (hg : o.preserveG1 = true)
    (hoff : e.eps ≤ o.trailOffset) (tol : ℝ) (l : List (Path ℝ)) (hs : ∀ p ∈ l, SimplePath p) (hlong : ∀ p ∈ l, ∃ s ∈ p, Long e.eps s) {r : List (Path ℝ)} (h : prepare e o tol l = .ok r) :
    ∃ qs, List.Forall₂ (fun p q => Traced e.eps o.trailOffset (longOnes e.eps p) q) l qs ∧ List.Forall₂ (Repaired e.eps o.biarcTol o.lineFlatness) qs r := by
  have habs : e.eps ≤ |o.trailOffset| := hoff.trans (le_abs_self _)
  rw [prepare_repair e o ho hon tol l hs (by simpa using heps.trans_le hoff) hg] at h
  obtain ⟨qs, hqs, h2⟩ := bind_ok h
  refine ⟨qs, ?_, (mapM_forall₂ _ _ _ h2).imp fun q p hqp => fix_repaired heps he hqp⟩
  have hf := mapM_forall₂ _ _ _ hqs
  clear h h2 hqs ho
  induction hf with
  | nil => exact .nil
  | cons h1 h2 ih =>
    refine .cons ?_ (ih (fun p hp => hs p (by simp [hp])) fun p hp => hlong p (by simp [hp]))
    rename_i p q l' r'
    obtain ⟨q', hq, h3⟩ := C38_offset_partial heps p o.trailOffset o.lineFlatness none habs (hs p (by simp)) (hlong p (by simp))
    rw [hq, Except.ok.injEq] at h1
    subst h1
    exact h3

/-- Non-vacuity: of two lines in a row, moved forward by 1, the first one is replaced by a line on which the tool keeps its angle. -/
example : prepare envQ { optQ with trailOffset := 1, toolOffset := true, preserveG1 := true } (1 / 1000) [[⟨.line ⟨⟨0, 0⟩, ⟨4, 0⟩⟩, {}⟩, ⟨.line ⟨⟨4, 0⟩, ⟨8, 0⟩⟩, {}⟩]] =
      .ok [[⟨.line ⟨⟨1, 0⟩, ⟨5, 0⟩⟩, { startA := some 0, endA := some 0 }⟩, ⟨.line ⟨⟨5, 0⟩, ⟨9, 0⟩⟩, {}⟩]] := by decide +kernel

/-- Non-vacuity: a corner is bridged by an arc, and nothing is repaired. -/
example : (prepare envQ { optQ with trailOffset := 1, toolOffset := true, preserveG1 := true } (1 / 1000) [[⟨.line ⟨⟨0, 0⟩, ⟨4, 0⟩⟩, {}⟩, ⟨.line ⟨⟨4, 0⟩, ⟨4, 4⟩⟩, {}⟩]]).toOption.map
      (fun r => r.map fun p : Path ℚ => List.map (fun s : Seg ℚ => [s.p1.x, s.p1.y, s.p2.x, s.p2.y]) p) =
      some [[[1, 0, 5, 0], [5, 0, 4, 1], [4, 1, 4, 5]]] := by decide +kernel

end Verif.Cam
