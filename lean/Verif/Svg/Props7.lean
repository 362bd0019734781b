import Verif.Svg.Context
import Verif.Svg.Props4
import Verif.Svg.Props6
import Verif.Geom.Props1

/-!
# C75 – C77, C85, C86: units, visibility, transforms
-/

set_option linter.unusedSectionVars false

namespace Verif.Svg
open Verif PyFloat PyTrig Geom Css

/-! ## C76: visibility -/

/-- Specification: the value of a style property of an element. -/
def HasStyle (n : Node) (name value : String) : Prop :=
  ∃ d, inlineStyleToDict n.style = .ok d ∧ d.get name.toList = some value.toList

/-- Specification: the visibility an element asks for: the style property, or else the attribute. -/
def Asks (n : Node) (value : String) : Prop :=
  HasStyle n "visibility" value ∨
  (∃ d, inlineStyleToDict n.style = .ok d ∧ d.get "visibility".toList = none) ∧ n.visibility = some value.toList

/-- Specification: the element is switched off: `display:none`, or visibility `hidden` or `collapse`. -/
def Off (n : Node) : Prop := HasStyle n "display" "none" ∨ Asks n "hidden" ∨ Asks n "collapse"

/-- Specification: the style attribute can be parsed. -/
def GoodStyle (n : Node) : Prop := ∃ d, inlineStyleToDict n.style = .ok d

/-- The visibility found by the code. -/
def visOf (d : Style) (n : Node) : Option Str :=
  match d.get "visibility".toList with
  | some v => some v
  | none => n.visibility

theorem asks_iff {n : Node} {d : Style} (h : inlineStyleToDict n.style = .ok d) (v : String) : Asks n v ↔ visOf d n = some v.toList := by
  unfold Asks HasStyle visOf
  rw [h]
  constructor
  · rintro (⟨d', h1, h2⟩ | ⟨⟨d', h1, h2⟩, h3⟩)
    · cases h1; rw [h2]
    · cases h1; rw [h2]; exact h3
  · intro h1
    cases hg : d.get "visibility".toList with
    | some w => rw [hg] at h1; exact Or.inl ⟨d, rfl, by rw [hg]; exact h1⟩
    | none => rw [hg] at h1; exact Or.inr ⟨⟨d, rfl, hg⟩, h1⟩

theorem display_iff {n : Node} {d : Style} (h : inlineStyleToDict n.style = .ok d) (v : String) :
    HasStyle n "display" v ↔ d.get "display".toList = some v.toList := by
  unfold HasStyle
  rw [h]
  constructor
  · rintro ⟨d', h1, h2⟩; cases h1; exact h2
  · intro h1; exact ⟨d, rfl, h1⟩

theorem nodeVisible_cons (cp r : Bool) (n : Node) (ns : List Node) {d : Style} (h : inlineStyleToDict n.style = .ok d) :
    nodeVisible cp r (n :: ns) = if d.get "display".toList = some "none".toList then .ok false
      else if visOf d n = some "inherit".toList && !cp then nodeVisible true true ns
      else if visOf d n = some "hidden".toList || visOf d n = some "collapse".toList then .ok false
      else if cp then nodeVisible true true ns else .ok true := by
  rw [nodeVisible, h]
  show (if _ then _ else _) = _
  split
  · rfl
  · rfl

theorem visible_true (ns : List Node) (h : ∀ n ∈ ns, GoodStyle n) :
    ∃ b, nodeVisible true true ns = .ok b ∧ (b = false ↔ ∃ n ∈ ns, Off n) := by
  induction ns with
  | nil => exact ⟨true, rfl, by simp⟩
  | cons n ns ih =>
    obtain ⟨d, hd⟩ := h n (by simp)
    obtain ⟨b, hb, hiff⟩ := ih fun m hm => h m (by simp [hm])
    rw [nodeVisible_cons true true n ns hd]
    simp only [Bool.not_true, Bool.and_false, Bool.false_eq_true, if_false]
    by_cases h1 : d.get "display".toList = some "none".toList
    · rw [if_pos h1]
      exact ⟨false, rfl, fun _ => ⟨n, by simp, Or.inl ((display_iff hd _).2 h1)⟩, fun _ => rfl⟩
    · rw [if_neg h1]
      by_cases h2 : (decide (visOf d n = some "hidden".toList) || decide (visOf d n = some "collapse".toList)) = true
      · rw [if_pos h2]
        refine ⟨false, rfl, fun _ => ⟨n, by simp, Or.inr ?_⟩, fun _ => rfl⟩
        simp only [Bool.or_eq_true, decide_eq_true_eq] at h2
        rcases h2 with h2 | h2
        · exact Or.inl ((asks_iff hd _).2 h2)
        · exact Or.inr ((asks_iff hd _).2 h2)
      · rw [if_neg h2, if_pos trivial]
        refine ⟨b, hb, hiff.trans ?_⟩
        have hnot : ¬ Off n := by
          rintro (h3 | h3 | h3)
          · exact h1 ((display_iff hd _).1 h3)
          · exact h2 (by simp [(asks_iff hd _).1 h3])
          · exact h2 (by simp [(asks_iff hd _).1 h3])
        constructor
        · rintro ⟨m, hm, ho⟩; exact ⟨m, by simp [hm], ho⟩
        · rintro ⟨m, hm, ho⟩
          rcases List.mem_cons.1 hm with rfl | hm
          · exact absurd ho hnot
          · exact ⟨m, hm, ho⟩

/-- **C76**, with `check_parent`: for every element and every chain of ancestors (whose style attributes can be parsed), the element is
invisible exactly if it or one of its ancestors is switched off. -/
theorem C76_visible (n : Node) (ancestors : List Node) (h : ∀ m ∈ n :: ancestors, GoodStyle m) :
    ∃ b, nodeVisible true false (n :: ancestors) = .ok b ∧ (b = false ↔ ∃ m ∈ n :: ancestors, Off m) := by
  obtain ⟨d, hd⟩ := h n (by simp)
  obtain ⟨b, h1, h2⟩ := visible_true (n :: ancestors) h
  refine ⟨b, ?_, h2⟩
  rw [← h1, nodeVisible_cons _ _ _ _ hd, nodeVisible_cons _ _ _ _ hd]

/-- **C76**, without `check_parent`: only the element itself counts, unless it asks for `inherit`; then its ancestors count
too (the `display` of the element counts in both cases). -/
theorem C76_visible_alone (n : Node) (ancestors : List Node) (h : ∀ m ∈ n :: ancestors, GoodStyle m) :
    ∃ b, nodeVisible false false (n :: ancestors) = .ok b ∧
      (¬ Asks n "inherit" → (b = false ↔ Off n)) ∧
      (Asks n "inherit" → (b = false ↔ HasStyle n "display" "none" ∨ ∃ m ∈ ancestors, Off m)) := by
  obtain ⟨d, hd⟩ := h n (by simp)
  obtain ⟨b, hb, hiff⟩ := visible_true ancestors fun m hm => h m (by simp [hm])
  rw [nodeVisible_cons _ _ _ _ hd]
  simp only [Bool.not_false, Bool.and_true, decide_eq_true_eq, Bool.false_eq_true, if_false]
  by_cases h1 : d.get "display".toList = some "none".toList
  · rw [if_pos h1]
    have := (display_iff hd "none").2 h1
    exact ⟨false, rfl, fun _ => ⟨fun _ => Or.inl this, fun _ => rfl⟩, fun _ => ⟨fun _ => Or.inl this, fun _ => rfl⟩⟩
  · rw [if_neg h1]
    have hnd : ¬ HasStyle n "display" "none" := fun h => h1 ((display_iff hd _).1 h)
    by_cases h2 : visOf d n = some "inherit".toList
    · rw [if_pos h2]
      refine ⟨b, hb, fun h => absurd ((asks_iff hd _).2 h2) h, fun _ => ?_⟩
      rw [hiff]
      constructor
      · intro h; exact Or.inr h
      · rintro (h | h)
        · exact absurd h hnd
        · exact h
    · rw [if_neg h2]
      by_cases h3 : (decide (visOf d n = some "hidden".toList) || decide (visOf d n = some "collapse".toList)) = true
      · rw [if_pos h3]
        refine ⟨false, rfl, fun _ => ?_, fun h => absurd ((asks_iff hd _).1 h) h2⟩
        simp only [true_iff]
        simp only [Bool.or_eq_true, decide_eq_true_eq] at h3
        rcases h3 with h3 | h3
        · exact Or.inr (Or.inl ((asks_iff hd _).2 h3))
        · exact Or.inr (Or.inr ((asks_iff hd _).2 h3))
      · rw [if_neg h3]
        refine ⟨true, rfl, fun _ => ?_, fun h => absurd ((asks_iff hd _).1 h) h2⟩
        constructor
        · intro h; cases h
        · rintro (h | h | h)
          · exact absurd h hnd
          · exact absurd (by simp [(asks_iff hd _).1 h]) h3
          · exact absurd (by simp [(asks_iff hd _).1 h]) h3

/-- Non-vacuity: a visible element in a hidden group. -/
example : nodeVisible true false [⟨some "fill:none;visibility:visible".toList, some "hidden".toList⟩, ⟨none, some "collapse".toList⟩, ⟨none, none⟩]
    = .ok false ∧
    nodeVisible false false [⟨some "fill:none;visibility:visible".toList, some "hidden".toList⟩, ⟨none, some "collapse".toList⟩, ⟨none, none⟩]
    = .ok true := ⟨rfl, rfl⟩

/-! ## C77: transforms -/

/-- Specification: what a transform does to a point (SVG 1.1, 7.6). -/
noncomputable def svgApply (name : String) (v : List ℝ) (p : P ℝ) : P ℝ :=
  match name, v with
  | "translate", [x] => ⟨p.x + x, p.y⟩
  | "translate", [x, y] => ⟨p.x + x, p.y + y⟩
  | "scale", [s] => ⟨s * p.x, s * p.y⟩
  | "scale", [sx, sy] => ⟨sx * p.x, sy * p.y⟩
  | "rotate", [a] => ⟨Real.cos (a * Real.pi / 180) * p.x - Real.sin (a * Real.pi / 180) * p.y,
      Real.sin (a * Real.pi / 180) * p.x + Real.cos (a * Real.pi / 180) * p.y⟩
  | "rotate", [a, cx, cy] => ⟨cx + Real.cos (a * Real.pi / 180) * (p.x - cx) - Real.sin (a * Real.pi / 180) * (p.y - cy),
      cy + Real.sin (a * Real.pi / 180) * (p.x - cx) + Real.cos (a * Real.pi / 180) * (p.y - cy)⟩
  | "skewX", [a] => ⟨p.x + Real.tan (a * Real.pi / 180) * p.y, p.y⟩
  | "skewY", [a] => ⟨p.x, p.y + Real.tan (a * Real.pi / 180) * p.x⟩
  | "matrix", [a, b, c, d, e, f] => ⟨a * p.x + c * p.y + e, b * p.x + d * p.y + f⟩
  | _, _ => p

/-- Specification: a transform with a number of values that SVG allows. -/
def OkTransform (name : String) (n : Nat) : Prop :=
  (name = "translate" ∧ (n = 1 ∨ n = 2)) ∨ (name = "scale" ∧ (n = 1 ∨ n = 2)) ∨ (name = "rotate" ∧ (n = 1 ∨ n = 3)) ∨
  (name = "skewX" ∧ n = 1) ∨ (name = "skewY" ∧ n = 1) ∨ (name = "matrix" ∧ n = 6)

theorem transformMatrix_apply {name : String} {v : List ℝ} (h : OkTransform name v.length) :
    ∃ m, transformMatrix name.toList v = .ok (some m) ∧ ∀ p, m.apply p = svgApply name v p := by
  rcases h with ⟨rfl, h⟩ | ⟨rfl, h⟩ | ⟨rfl, h⟩ | ⟨rfl, h⟩ | ⟨rfl, h⟩ | ⟨rfl, h⟩
  · rcases h with h | h
    · match v, h with
      | [x], _ => exact ⟨_, rfl, fun p => by apply P.ext_real <;> simp [Mat.translate, Mat.apply, svgApply]⟩
    · match v, h with
      | [x, y], _ => exact ⟨_, rfl, fun p => by apply P.ext_real <;> simp [Mat.translate, Mat.apply, svgApply]⟩
  · rcases h with h | h
    · match v, h with
      | [x], _ => exact ⟨_, rfl, fun p => by apply P.ext_real <;> simp [Mat.scale, Mat.apply, svgApply]⟩
    · match v, h with
      | [x, y], _ => exact ⟨_, rfl, fun p => by apply P.ext_real <;> simp [Mat.scale, Mat.apply, svgApply]⟩
  · rcases h with h | h
    · match v, h with
      | [a], _ =>
        refine ⟨_, rfl, fun p => ?_⟩
        rw [(C42_rotation 0 _ _ p p).2.2.2]
        apply P.ext_real <;> simp [svgApply, radians]
    · match v, h with
      | [a, cx, cy], _ =>
        refine ⟨_, rfl, fun p => ?_⟩
        rw [(C42_rotation 0 _ _ p p).2.2.2]
        apply P.ext_real <;> simp [svgApply, radians]
  · match v, h with
    | [a], _ => exact ⟨_, rfl, fun p => by apply P.ext_real <;> simp [Mat.skewX, Mat.apply, svgApply, radians]⟩
  · match v, h with
    | [a], _ => exact ⟨_, rfl, fun p => by apply P.ext_real <;> simp [Mat.skewY, Mat.apply, svgApply, radians] <;> ring⟩
  · match v, h with
    | [a, b, c, d, e, f], _ => exact ⟨_, rfl, fun p => by apply P.ext_real <;> simp [Mat.apply, svgApply]⟩

end Verif.Svg
