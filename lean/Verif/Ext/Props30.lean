import Verif.Ext.Styles
import Verif.Svg.Props23

/-!
# C175: the markers that the styles of the preview refer to
-/

set_option linter.unusedSectionVars false

namespace Verif.Ext
open Verif PyFloat PyTrig Geom Svg

/-- Specification: the style refers to the element of this id: `url(#<id>)` is in it. -/
def Refers (s id : Str) : Prop := ')' ∉ id ∧ ∃ pre post, s = pre ++ ("url(#".toList ++ (id ++ ')' :: post))

/-- The ids after each `url(#`. -/
def urlRefs : Str → List Str
  | [] => []
  | c :: s => (if "url(#".toList.isPrefixOf (c :: s) then [((c :: s).drop 5).takeWhile (· ≠ ')')] else []) ++ urlRefs s

theorem refers_mem {s id : Str} (h : Refers s id) : id ∈ urlRefs s := by
  obtain ⟨h1, pre, post, rfl⟩ := h
  induction pre with
  | nil =>
    show id ∈ (if "url(#".toList.isPrefixOf ("url(#".toList ++ (id ++ ')' :: post)) then [(("url(#".toList ++ (id ++ ')' :: post)).drop 5).takeWhile (· ≠ ')')] else []) ++ _
    rw [if_pos (by rw [List.isPrefixOf_iff_prefix]; exact List.prefix_append _ _)]
    have e : ("url(#".toList ++ (id ++ ')' :: post)).drop 5 = id ++ ')' :: post := rfl
    have e2 : (id ++ ')' :: post).takeWhile (· ≠ ')') = id := by
      rw [List.takeWhile_append_of_pos]
      · simp
      · intro c hc
        simp only [ne_eq, decide_not, Bool.not_eq_eq_eq_not, Bool.not_true, decide_eq_false_iff_not]
        rintro rfl
        exact h1 hc
    rw [e, e2]
    simp
  | cons c pre ih =>
    rw [List.cons_append]
    unfold urlRefs
    exact List.mem_append_right _ ih

/-- Which marker a style of the preview refers to, and the setting that both take their colour from. -/
theorem preview_refs : ∀ t ∈ previewTemplates, ∀ id ∈ urlRefs t.2, (id = "PreviewLineEnd0".toList ∧ "stroke:$feedline_stroke;".toList <:+: t.2) ∨
    (id = "PreviewLineEnd2".toList ∧ "stroke:$moveline_stroke;".toList <:+: t.2) := by decide +kernel

/-- **C175.** Every marker that a style of the preview refers to is in the document after the markers are made, once, and its colour is that of the lines of this style (their fill and
stroke are taken from the same setting). -/
theorem C175_referenced (styles : Str → Str) (scale : Str) (doc : XNode) (hd : ∃ ns t a k, doc = .elem ns t a k)
    (h : ∀ m ∈ previewMarkers styles scale, OnlyInDefs doc m.id) (t : Str × Str) (ht : t ∈ previewTemplates) (id : Str) (hr : Refers t.2 id) :
    copies (createMarkers (previewMarkers styles scale) doc) id = 1 ∧
    ∃ m n, m.id = id ∧ (byId (createMarkers (previewMarkers styles scale) doc) id).map At.node = some n ∧ IsMarker m n ∧
      ∃ name template slot, m.style = styles name ∧ (name, template) ∈ previewTemplates ∧ ("fill:$".toList ++ slot ++ ";".toList) <:+: template ∧
        ("stroke:$".toList ++ slot ++ ";".toList) <:+: t.2 := by
  have hn : ((previewMarkers styles scale).map MarkerArgs.id).Nodup := by
    show ["PreviewLineEnd0".toList, "PreviewLineEnd1".toList, "PreviewLineEnd2".toList].Nodup
    decide +kernel
  rcases preview_refs t ht id (refers_mem hr) with ⟨rfl, hs⟩ | ⟨rfl, hs⟩
  · obtain ⟨h1, n, h2, h3⟩ := C175_once _ hn doc hd h ⟨"PreviewLineEnd0".toList, "M 5.77,0.0 L -2.88,5.0 L -2.88,-5.0 L 5.77,0.0 z".toList, styles "toolpath_end_marker".toList,
      "scale(".toList ++ scale ++ ") translate(-4.5,0)".toList⟩ (by simp [previewMarkers])
    refine ⟨h1, _, n, rfl, h2, h3, "toolpath_end_marker".toList, "fill-rule:evenodd;fill:$feedline_stroke;stroke:none;marker-start:none".toList, "feedline_stroke".toList, rfl, ?_, ?_, hs⟩
    · simp [previewTemplates]
    · decide +kernel
  · obtain ⟨h1, n, h2, h3⟩ := C175_once _ hn doc hd h ⟨"PreviewLineEnd2".toList, "M 5.77,0.0 L -2.88,5.0 L -2.88,-5.0 L 5.77,0.0 z".toList, styles "movepath_end_marker".toList,
      "scale(".toList ++ scale ++ ") translate(-4.5,0)".toList⟩ (by simp [previewMarkers])
    refine ⟨h1, _, n, rfl, h2, h3, "movepath_end_marker".toList, "fill-rule:evenodd;fill:$moveline_stroke;stroke:none;marker-start:none".toList, "moveline_stroke".toList, rfl, ?_, ?_, hs⟩
    · simp [previewTemplates]
    · decide +kernel

/-- The styles of feed lines, feed arcs and moves refer to markers. -/
example : (previewTemplates.filter fun t => !(urlRefs t.2).isEmpty).map (fun t => String.ofList t.1) = ["feedline", "feedarc", "moveline"] ∧
    Refers ((previewTemplates.lookup "feedline".toList).getD []) "PreviewLineEnd0".toList := by
  refine ⟨by decide +kernel, by decide +kernel, "fill:none;stroke:$feedline_stroke;stroke-width:$feedline_stroke_width;stroke-opacity:1.0;marker-end:".toList, [], by decide +kernel⟩

end Verif.Ext
