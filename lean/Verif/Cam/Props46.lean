import Verif.Cam.Props44

/-!
# C189: the trail offset and paths without length
-/

set_option linter.unusedSectionVars false

namespace Verif.Cam
open Verif PyFloat PyTrig Geom

/-- The first exception of a `map` whose calls only raise `err`. -/
theorem mapM_raises {α β : Type} (f : α → Except PyErr β) (err : PyErr) (l : List α) (h : ∀ a ∈ l, (∃ b, f a = .ok b) ∨ f a = .error err) (he : ∃ a ∈ l, f a = .error err) :
    l.mapM f = .error err := by
  induction l with
  | nil => obtain ⟨a, ha, -⟩ := he; cases ha
  | cons a l ih =>
    rcases h a (by simp) with ⟨b, hb⟩ | hb
    · have ht : l.mapM f = .error err := by
        refine ih (fun x hx => h x (by simp [hx])) ?_
        obtain ⟨x, hx, hxe⟩ := he
        rcases List.mem_cons.1 hx with rfl | hx
        · rw [hb] at hxe; cases hxe
        · exact ⟨x, hx, hxe⟩
      simp only [List.mapM_cons, hb, ht]
      rfl
    · simp only [List.mapM_cons, hb]
      rfl

/-- **C189** fails for the trail offset if there is, among paths of lines and arcs, one without any segment between two different points, such as a line that is a dot: nothing is cut,
the run raises `IndexError`, with or without the repair of smoothness. -/
theorem C189_refuted_offset (e : Env ℝ) (heps : 0 < e.eps) (o : Opts ℝ) (ho : Plain { o with toolOffset := false }) (hon : o.toolOffset = true) (hoff : e.eps ≤ o.trailOffset)
    (tol : ℝ) (l : List (Path ℝ)) (hs : ∀ p ∈ l, SimplePath p) (hshort : ∃ p ∈ l, ∀ s ∈ p, ¬ Long e.eps s) : prepare e o tol l = .error .indexError := by
  have habs : e.eps ≤ |o.trailOffset| := hoff.trans (le_abs_self _)
  have hm : (l.mapM fun p => offsetPath e.eps p o.trailOffset o.lineFlatness) = .error .indexError := by
    refine mapM_raises _ _ _ ?_ ?_
    · intro p hp
      by_cases hl : ∃ s ∈ p, Long e.eps s
      · obtain ⟨q, hq, -⟩ := C38_offset_partial heps p o.trailOffset o.lineFlatness none habs (hs p hp) hl
        exact Or.inl ⟨q, hq⟩
      · exact Or.inr (C38_refuted_degenerate heps p o.trailOffset o.lineFlatness none habs fun s hsp hl' => hl ⟨s, hsp, hl'⟩)
    · obtain ⟨p, hp, hp'⟩ := hshort
      exact ⟨p, hp, C38_refuted_degenerate heps p o.trailOffset o.lineFlatness none habs hp'⟩
  cases hg : o.preserveG1 with
  | false => rw [prepare_offset e o ho hon tol l hs (by simpa using heps.trans_le hoff) hg, hm]
  | true => rw [prepare_repair e o ho hon tol l hs (by simpa using heps.trans_le hoff) hg, hm]; rfl

/-- Non-vacuity: a stroke and a dot. -/
example : (∀ p ∈ [strokeR 0 0 3 0, [⟨.line ⟨⟨1, 0⟩, ⟨1, 0⟩⟩, {}⟩]], SimplePath p) ∧
    ∃ p ∈ [strokeR 0 0 3 0, [⟨.line ⟨⟨1, 0⟩, ⟨1, 0⟩⟩, {}⟩]], ∀ s ∈ p, ¬ Long (1 / 1000) s := by
  constructor
  · intro p hp s hs
    simp only [List.mem_cons, List.not_mem_nil, or_false] at hp
    rcases hp with rfl | rfl
    · simp only [strokeR, List.mem_singleton] at hs; subst hs; exact Or.inl ⟨_, rfl⟩
    · simp only [List.mem_singleton] at hs; subst hs; exact Or.inl ⟨_, rfl⟩
  · refine ⟨_, List.mem_cons_of_mem _ (List.mem_singleton.2 rfl), ?_⟩
    intro s hs
    simp only [List.mem_singleton] at hs
    subst hs
    norm_num [Long, sqDist, Seg.p1, Seg.p2, Shape.p1, Shape.p2]

end Verif.Cam
