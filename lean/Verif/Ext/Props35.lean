import Verif.Ext.QLayers

/-!
# C197: what the quasicrystal extension draws
-/

set_option linter.unusedSectionVars false

namespace Verif.Ext
open Verif PyFloat PyTrig Geom

/-! ## Specification -/

/-- Specification: what the user has asked for.  Segments and what is made of them need a kind of segment for some tile; a frame needs a size. -/
def Asked (o : QDraw ℝ) : QStep → Prop
  | .info => o.info = true
  | .margins => o.margins = true
  | .polygons => o.polygons = true
  | .polysegs => o.polysegs = true
  | .insets => 1 ≤ o.polygonMult
  | .ellipses => o.ellipses = true
  | .segments => o.segments = true ∧ ¬(o.skinnyNone = true ∧ o.fatNone = true)
  | .segboxes => o.segments = true ∧ ¬(o.skinnyNone = true ∧ o.fatNone = true)
  | .chains => o.segpaths = true ∧ ¬(o.skinnyNone = true ∧ o.fatNone = true)
  | .frame => o.frame = true ∧ 0 < o.frameWidth ∧ 0 < o.frameHeight

/-- Specification: the order of the drawings, from the bottom up. -/
def drawingOrder : List QStep := [.info, .margins, .polygons, .polysegs, .insets, .ellipses, .segments, .segboxes, .chains, .frame]

/-- Specification: how the names of the layers of each drawing begin. -/
def layerName : QStep → String
  | .info => "q_info"
  | .margins => "q_margins"
  | .polygons => "q_polygons_"
  | .polysegs => "q_polyseg"
  | .insets => "q_insetpolygons_"
  | .ellipses => "q_polygon_ellipses"
  | .segments => "q_segments"
  | .segboxes => "q_segpolys_"
  | .chains => "q_segment_chains"
  | .frame => "q_frame"

/-- Specification: the number of layers of each drawing. -/
def layerCount (o : QDraw ℝ) (colors kinds : Nat) : QStep → Nat
  | .polysegs => if o.polysegLayers then colors else 1
  | .insets => o.polygonMult.toNat
  | .segboxes => if o.segboxLayers then kinds else 1
  | _ => 1

/-- Specification: drawings that replace those of an earlier run; the others are added to them. -/
def Replaced (s : QStep) : Prop := s = .info ∨ s = .margins ∨ s = .frame

instance : DecidablePred Replaced := fun _ => inferInstanceAs (Decidable (_ ∨ _ ∨ _))

/-- Specification: the lines of the info layer: what each is about, and the settings in it with the number of decimals. -/
def infoSpec (rotation : ℝ) (o : QInfo ℝ) : List (List (String × (Int ⊕ (Nat × ℝ)))) := [
  [("Symmetry: ", .inl o.symmetry)],
  [("Scale: ", .inr (1, o.scale))],
  [("Rotation: ", .inr (2, rotation))],
  [("Offset X: ", .inr (2, o.offsetX))],
  [("Offset Y: ", .inr (2, o.offsetY))],
  [("Skinny-fat ratio: ", .inr (2, o.skinnyfatRatio))],
  [("Segment ratio: ", .inr (2, o.segmentRatio))],
  [("Num lines: ", .inl o.numlines)],
  [("Salt X: ", .inr (5, o.saltX))],
  [("Salt Y: ", .inr (5, o.saltY))],
  [("Epsilon: ", .inr (5, o.epsilon))],
  [("Margins: T", .inr (2, o.marginTop)), (", L", .inr (2, o.marginLeft)), (", R", .inr (2, o.marginRight)), (", B", .inr (2, o.marginBottom))],
  [("Polygon sort: ", .inl o.polygonSort)]]

/-- Specification: a line as a text. -/
def infoText (decimal : Int → Str) (fixed : Nat → ℝ → Str) (l : List (String × (Int ⊕ (Nat × ℝ)))) : Str :=
  l.flatMap fun (name, v) => name.toList ++ v.elim decimal fun (n, x) => fixed n x

/-! ## Lemmas -/

theorem mem_qSteps (o : QDraw ℝ) (s : QStep) : s ∈ qSteps o ↔ Asked o s := by
  have key : ∀ (c : Prop) [Decidable c] (l : List QStep), s ∈ (if c then l else []) ↔ c ∧ s ∈ l := by
    intro c _ l; split_ifs with h <;> simp [h]
  simp only [qSteps, List.mem_append, key]
  cases s <;> simp [Asked]
  case insets => omega
  all_goals (cases o.skinnyNone <;> cases o.fatNone <;> simp)

theorem qSteps_sublist (o : QDraw ℝ) : List.Sublist (qSteps o) drawingOrder := by
  have key : ∀ (c : Prop) [Decidable c] (l : List QStep), List.Sublist (if c then l else []) l := by
    intro c _ l; split_ifs <;> simp
  have : drawingOrder = [.info] ++ [.margins] ++ [.polygons] ++ [.polysegs] ++ [.insets] ++ [.ellipses] ++ [.segments, .segboxes] ++ [.chains] ++ [.frame] := rfl
  rw [this]
  unfold qSteps
  exact ((((((((key _ _).append (key _ _)).append (key _ _)).append (key _ _)).append (key _ _)).append (key _ _)).append (key _ _)).append (key _ _)).append (key _ _)

theorem drawingOrder_nodup : drawingOrder.Nodup := by decide

theorem stepLayers_prefix (decimal : Int → Str) (o : QDraw ℝ) (colors kinds : Nat) (s : QStep) (l : QLayer) (h : l ∈ stepLayers decimal o colors kinds s) :
    (layerName s).toList <+: l.name := by
  cases s <;> simp only [stepLayers] at h
  case polysegs =>
    split_ifs at h
    · obtain ⟨i, _, rfl⟩ := List.mem_map.1 h; exact ⟨"_".toList ++ decimal i, rfl⟩
    · rw [List.mem_singleton] at h; rw [h]; exact ⟨"s".toList, rfl⟩
  case insets => obtain ⟨i, _, rfl⟩ := List.mem_map.1 h; exact ⟨_, rfl⟩
  case segboxes =>
    split_ifs at h
    · obtain ⟨i, _, rfl⟩ := List.mem_map.1 h; exact ⟨decimal o.symmetry ++ ("_".toList ++ decimal i), by simp [layerName]⟩
    · rw [List.mem_singleton] at h; rw [h]; exact ⟨_, rfl⟩
  case polygons => rw [List.mem_singleton] at h; rw [h]; exact ⟨_, rfl⟩
  all_goals rw [List.mem_singleton] at h; rw [h]; exact List.prefix_rfl

theorem layerName_apart (s s' : QStep) (h : (layerName s).toList <+: (layerName s').toList) : s = s' := by
  cases s <;> cases s' <;> first | rfl | (exfalso; revert h; decide +kernel)

/-! ## Properties -/

/-- **C197**, what is drawn: everything that was asked for, once, and nothing else, always in the same order. -/
theorem C197_steps (o : QDraw ℝ) : (∀ s, s ∈ qSteps o ↔ Asked o s) ∧ (qSteps o).Nodup ∧ List.Sublist (qSteps o) drawingOrder :=
  ⟨mem_qSteps o, (qSteps_sublist o).nodup drawingOrder_nodup, qSteps_sublist o⟩

/-- **C197**, layers: every drawing has its own layers, as many as asked for, with names that begin alike; no two layers of a run have the same name, if different numbers are written
differently.  The layers of the info, the margins and the frame replace those of an earlier run, all others are new. -/
theorem C197_layers (decimal : Int → Str) (hd : Function.Injective decimal) (o : QDraw ℝ) (colors kinds : Nat) :
    (qLayers decimal o colors kinds).Pairwise (fun l l' => l.name ≠ l'.name) ∧
    ∃ per : QStep → List QLayer, qLayers decimal o colors kinds = ((drawingOrder.filter fun s => decide (s ∈ qSteps o)).flatMap per) ∧
      ∀ s, (per s).length = layerCount o colors kinds s ∧ ∀ l ∈ per s, (layerName s).toList <+: l.name ∧ (l.fresh = true ↔ ¬Replaced s) := by
  constructor
  · unfold qLayers
    rw [List.pairwise_flatMap]
    constructor
    · intro s _
      cases s <;> simp only [stepLayers]
      case polysegs =>
        split_ifs
        · rw [List.pairwise_map]
          refine (List.nodup_range).imp ?_
          intro a b hab h
          exact hab (by simpa using hd (List.append_cancel_left h))
        · exact List.pairwise_singleton _ _
      case insets =>
        rw [List.pairwise_map]
        refine (List.nodup_range).imp ?_
        intro a b hab h
        exact hab (by simpa using hd (List.append_cancel_left h))
      case segboxes =>
        split_ifs
        · rw [List.pairwise_map]
          refine (List.nodup_range).imp ?_
          intro a b hab h
          exact hab (by simpa using hd (List.append_cancel_left h))
        · exact List.pairwise_singleton _ _
      all_goals exact List.pairwise_singleton _ _
    · refine (C197_steps o).2.1.imp ?_
      intro s s' hs l hl l' hl' hn
      have h1 := stepLayers_prefix decimal o colors kinds s l hl
      have h2 := stepLayers_prefix decimal o colors kinds s' l' hl'
      rw [← hn] at h2
      rcases List.prefix_or_prefix_of_prefix h1 h2 with h | h
      · exact hs (layerName_apart _ _ h)
      · exact hs (layerName_apart _ _ h).symm
  · refine ⟨stepLayers decimal o colors kinds, ?_, ?_⟩
    · unfold qLayers
      congr 1
      have hsub := qSteps_sublist o
      generalize qSteps o = l at hsub
      have := drawingOrder_nodup
      revert this hsub
      generalize drawingOrder = d
      intro hsub hnd
      induction hsub with
      | slnil => rfl
      | @cons l₁ l₂ a h ih =>
        rw [List.nodup_cons] at hnd
        have hna : a ∉ l₁ := fun hm => hnd.1 (h.subset hm)
        rw [List.filter_cons_of_neg (by simpa using hna)]
        exact ih hnd.2
      | @cons_cons l₁ l₂ a h ih =>
        rw [List.nodup_cons] at hnd
        rw [List.filter_cons_of_pos (by simp)]
        congr 1
        refine (ih hnd.2).trans (List.filter_congr ?_)
        intro x hx
        have : x ≠ a := fun hxa => hnd.1 (hxa ▸ hx)
        simp [this]
    · intro s
      refine ⟨?_, ?_⟩
      · cases s <;> simp only [stepLayers, layerCount]
        case polysegs => split_ifs <;> simp
        case insets => simp
        case segboxes => split_ifs <;> simp
        all_goals rfl
      · intro l hl
        refine ⟨stepLayers_prefix decimal o colors kinds s l hl, ?_⟩
        cases s <;> simp only [stepLayers] at hl
        case polysegs =>
          split_ifs at hl
          · obtain ⟨i, _, rfl⟩ := List.mem_map.1 hl; simp [Replaced]
          · rw [List.mem_singleton] at hl; rw [hl]; simp [Replaced]
        case insets => obtain ⟨i, _, rfl⟩ := List.mem_map.1 hl; simp [Replaced]
        case segboxes =>
          split_ifs at hl
          · obtain ⟨i, _, rfl⟩ := List.mem_map.1 hl; simp [Replaced]
          · rw [List.mem_singleton] at hl; rw [hl]; simp [Replaced]
        all_goals rw [List.mem_singleton] at hl; rw [hl]; simp [Replaced]

/-- **C197**, the info layer: it shows the settings of the run, line by line; the rotation is shown in degrees as it was given, although it is kept in radians. -/
theorem C197_info (decimal : Int → Str) (fixed : Nat → ℝ → Str) (o : QInfo ℝ) (rotation : ℝ) (h : o.rotate = rotation * (Real.pi / 180)) :
    infoLines decimal fixed o = (infoSpec rotation o).map (infoText decimal fixed) := by
  have hr : degrees o.rotate = rotation := by
    show o.rotate * 180 / Real.pi = rotation
    rw [h]
    field_simp
  unfold infoLines infoSpec infoText
  rw [hr]
  simp [List.flatMap_cons]

/-! ## Examples -/

/-- Non-vacuity: tiles, their edges in a layer for each of two colours, and a frame without a size (not drawn). -/
example : let o : QDraw ℚ := ⟨false, false, true, true, 0, false, true, true, true, true, true, 0, 10, 5, true, true⟩
    let decimal : Int → Str := fun n => (toString n).toList
    (qLayers decimal o 2 3).map (fun l => (String.ofList l.name, l.fresh)) = [("q_polygons_5", true), ("q_polyseg_0", true), ("q_polyseg_1", true)] := by
  decide +kernel

end Verif.Ext
