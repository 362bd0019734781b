import Verif.Ext.Styles
import Verif.Svg.Props22

/-!
# C160: the styles of the extensions, C161: the styles of the lines and the preview
-/

set_option linter.unusedSectionVars false
set_option maxRecDepth 4000

namespace Verif.Ext
open Verif PyFloat PyTrig Svg Css

/-! ## Specification -/

/-- Specification: a default: a length or a text. -/
inductive Default
  | len (ip : Str) (frac : Option Str) (unit : LenUnit)
  | word (s : Str)
  deriving DecidableEq

/-- Specification: the length of a default. -/
def lengthOf (ip : Str) (frac : Option Str) (unit : LenUnit) : Length := ⟨⟨none, ip, frac, none⟩, [], some unit⟩

/-- Specification: the default as a setting. -/
def Default.setting : Default → Setting
  | .len ip frac unit => .length (lengthOf ip frac unit)
  | .word s => .word s

/-- Specification: the default as it is written. -/
def Default.text : Default → Str
  | .len ip frac unit => (lengthOf ip frac unit).text
  | .word s => s

/-- Specification: the default for a name. -/
def defaultOf (ds : List (Str × Default)) (k : Str) : Setting := ((ds.lookup k).getD (.word [])).setting

/-- Specification: the templates of `polypath.py`, in pieces. -/
def polypathPieces : List (Str × List Piece) := [
  ("dot".toList, [.lit "fill:%s;stroke-width:1px;stroke:#000000;".toList]),
  ("polyhull".toList, [.lit "fill:none;stroke-opacity:1.0;stroke-linejoin:round;stroke-width:".toList, .slot true "polyhull_stroke_width".toList, .lit ";stroke:".toList, .slot true "polyhull_stroke".toList, .lit ";".toList]),
  ("polychain".toList, [.lit "fill:none;stroke-opacity:0.8;stroke-linejoin:round;stroke-width:".toList, .slot true "polychain_stroke_width".toList, .lit ";stroke:".toList, .slot true "polychain_stroke".toList, .lit ";".toList]),
  ("polypath0".toList, [.lit "fill:none;stroke-opacity:0.8;stroke-linejoin:round;stroke-width:".toList, .slot true "polypath_stroke_width".toList, .lit ";stroke:".toList, .slot true "polypath_stroke".toList, .lit ";".toList]),
  ("polypath".toList, [.lit "fill:none;stroke-opacity:0.8;stroke-linejoin:round;stroke-width:".toList, .slot true "polypath_stroke_width".toList, .lit ";stroke:".toList, .slot true "polypath_stroke".toList, .lit ";".toList]),
  ("convexhull".toList, [.lit "fill:none;stroke-opacity:1.0;stroke-linejoin:round;stroke-width:".toList, .slot true "convexhull_stroke_width".toList, .lit ";stroke:".toList, .slot true "convexhull_stroke".toList, .lit ";".toList])]

/-- Specification: the defaults of `polypath.py`. -/
def polypathSettings : List (Str × Default) := [
  ("polyhull_stroke_width".toList, .len "3".toList none .pt),
  ("polyhull_stroke".toList, .word "#505050".toList),
  ("polychain_stroke_width".toList, .len "3".toList none .pt),
  ("polychain_stroke".toList, .word "#00ff00".toList),
  ("polypath_stroke_width".toList, .len "3".toList none .pt),
  ("polypath_stroke".toList, .word "#3090c0".toList),
  ("convexhull_stroke_width".toList, .len "3".toList none .pt),
  ("convexhull_stroke".toList, .word "#ff9030".toList)]

/-- Specification: the templates of `pipelines.py`, in pieces. -/
def pipelinesPieces : List (Str × List Piece) := [
  ("dot".toList, [.lit "fill:%s;stroke-width:1px;stroke:#000000;".toList]),
  ("pipeline".toList, [.lit "fill:none;stroke-opacity:1.0;stroke-linejoin:round;stroke-width:".toList, .slot true "pipeline_stroke_width".toList, .lit ";stroke:".toList, .slot true "pipeline_stroke".toList, .lit ";".toList])]

/-- Specification: the defaults of `pipelines.py`. -/
def pipelinesSettings : List (Str × Default) := [
  ("pipeline_stroke_width".toList, .len "3".toList none .pt),
  ("pipeline_stroke".toList, .word "#505050".toList)]

/-- Specification: the templates of `colorcount.py`, in pieces. -/
def colorcountPieces : List (Str × List Piece) := [
  ("keytext".toList, [.lit "font-family:Arial;font-size:".toList, .slot false "key_font_size".toList, .lit ";fill:#000000;stroke:none;".toList]),
  ("tagtext".toList, [.lit "font-family:Arial;font-size:".toList, .slot false "tag_font_size".toList, .lit ";fill:#000000;stroke:none;".toList]),
  ("colorbox".toList, [.lit "fill:%s;stroke:#606060;stroke-width:".toList, .slot false "colorbox_stroke_width".toList]),
  ("keyshape".toList, [.lit "fill:none;stroke:#000000;stroke-width:".toList, .slot false "shapekey_stroke_width".toList, .lit ";".toList])]

/-- Specification: the defaults of `colorcount.py`. -/
def colorcountSettings : List (Str × Default) := [
  ("key_font_size".toList, .len "12".toList none .pt),
  ("tag_font_size".toList, .len "9".toList none .pt),
  ("colorbox_stroke_width".toList, .len "1".toList none .pt),
  ("shapekey_stroke_width".toList, .len "1".toList none .pt)]

/-- Specification: the templates of `lines.py`, in pieces. -/
def linesPieces : List (Str × List Piece) := [
  ("h_line".toList, [.lit "fill:none;stroke-linejoin:round;stroke:".toList, .slot false "h_stroke".toList, .lit ";stroke-width:".toList, .slot false "h_stroke_width".toList, .lit ";stroke-opacity:".toList, .slot false "h_stroke_opacity".toList, .lit ";".toList]),
  ("v_line".toList, [.lit "fill:none;stroke-linejoin:round;stroke:".toList, .slot false "v_stroke".toList, .lit ";stroke-width:".toList, .slot false "v_stroke_width".toList, .lit ";stroke-opacity:".toList, .slot false "v_stroke_opacity".toList, .lit ";".toList])]

/-- Specification: the defaults of `lines.py`. -/
def linesSettings : List (Str × Default) := [
  ("h_stroke".toList, .word "#c0c0c0".toList),
  ("h_stroke_width".toList, .len "1".toList none .pt),
  ("h_stroke_opacity".toList, .word "1".toList),
  ("v_stroke".toList, .word "#c0c0c0".toList),
  ("v_stroke_width".toList, .len "1".toList none .pt),
  ("v_stroke_opacity".toList, .word "1".toList)]

/-- Specification: the templates of `polysmooth.py`, in pieces. -/
def polysmoothPieces : List (Str × List Piece) := [
  ("polysmooth".toList, [.lit "fill:none;stroke-opacity:1.0;stroke-linejoin:round;stroke-width:".toList, .slot true "polysmooth_stroke_width".toList, .lit ";stroke:".toList, .slot true "polysmooth_stroke".toList, .lit ";".toList])]

/-- Specification: the defaults of `polysmooth.py`. -/
def polysmoothSettings : List (Str × Default) := [
  ("polysmooth_stroke_width".toList, .len "1".toList none .px),
  ("polysmooth_stroke".toList, .word "#000".toList)]

/-- Specification: the templates of `quasink.py`, in pieces. -/
def quasinkPieces : List (Str × List Piece) := [
  ("infotext".toList, [.lit "font-size:.2;font-style:normal;font-weight:normal;line-height:125%;letter-spacing:0px;word-spacing:0px;fill:#000000;fill-opacity:1;stroke:none;font-family:Sans".toList]),
  ("dot".toList, [.lit "fill:%s;stroke-width:.2;stroke:#000000;".toList]),
  ("frame".toList, [.lit "fill:none;stroke-width:%s;stroke:#504030;".toList]),
  ("margins".toList, [.lit "fill:none;stroke-width:.1;stroke:#3030ff;".toList]),
  ("bbox".toList, [.lit "fill:none;stroke-width:.1;stroke:#30f090;".toList]),
  ("polygon".toList, [.lit "fill:none;stroke-opacity:1.0;stroke-linejoin:round;stroke-width:".toList, .slot false "polygon_stroke_width".toList, .lit ";stroke:".toList, .slot false "polygon_stroke".toList, .lit ";".toList]),
  ("polygon_filled".toList, [.lit "fill:%s;stroke:%s;stroke-width:".toList, .slot false "polygon_fill_stroke_width".toList, .lit ";".toList]),
  ("polygon_circle".toList, [.lit "stroke-opacity:1.0;stroke-linejoin:round;fill:none;stroke-width:.1;stroke:#903030;".toList]),
  ("polygon_ellipse".toList, [.lit "stroke-opacity:1.0;stroke-linejoin:round;fill:none;stroke-width:.1;stroke:#306060;".toList]),
  ("polyseg".toList, [.lit "fill:none;stroke-opacity:0.8;stroke-width:".toList, .slot false "polyseg_stroke_width".toList, .lit ";stroke:".toList, .slot false "polyseg_stroke".toList, .lit ";".toList]),
  ("polyseg_color".toList, [.lit "fill:none;stroke-opacity:0.8;stroke-width:".toList, .slot false "polyseg_stroke_width".toList, .lit ";stroke:%s;".toList]),
  ("segment".toList, [.lit "fill:none;stroke-opacity:0.8;stroke-width:".toList, .slot false "segment_stroke_width".toList, .lit ";stroke:".toList, .slot false "segment_stroke".toList, .lit ";".toList]),
  ("segbox".toList, [.lit "fill:%s;stroke:None".toList]),
  ("segchain".toList, [.lit "fill:%s;fill-opacity:0.5;stroke-opacity:0.75;stroke-linejoin:round;stroke-width:".toList, .slot false "segchain_stroke_width".toList, .lit ";stroke:".toList, .slot false "segchain_stroke".toList, .lit ";".toList])]

/-- Specification: the defaults of `quasink.py`. -/
def quasinkSettings : List (Str × Default) := [
  ("infotext_size".toList, .len "12".toList none .pt),
  ("margin_stroke_width".toList, .len "".toList (some "1".toList) .inch),
  ("margin_stroke".toList, .word "#000000".toList),
  ("polygon_fill_stroke_width".toList, .len "1".toList none .px),
  ("polygon_stroke_width".toList, .len "3".toList none .pt),
  ("polygon_stroke".toList, .word "#00ff00".toList),
  ("polyseg_stroke_width".toList, .len "".toList (some "1".toList) .inch),
  ("polyseg_stroke".toList, .word "#000000".toList),
  ("segment_stroke_width".toList, .len "3".toList none .pt),
  ("segment_stroke".toList, .word "#000000".toList),
  ("segchain_stroke_width".toList, .len "1".toList none .pt),
  ("segchain_stroke".toList, .word "#000000".toList)]

/-- Specification: the templates of `voronoi.py`, in pieces. -/
def voronoiPieces : List (Str × List Piece) := [
  ("voronoi".toList, [.lit "fill:none;stroke-opacity:1.0;stroke-linejoin:round;stroke-width:".toList, .slot true "voronoi_stroke_width".toList, .lit ";stroke:".toList, .slot true "voronoi_stroke".toList, .lit ";".toList]),
  ("delaunay".toList, [.lit "fill:none;stroke-opacity:1.0;stroke-linejoin:round;stroke-width:".toList, .slot true "delaunay_stroke_width".toList, .lit ";stroke:".toList, .slot true "delaunay_stroke".toList, .lit ";".toList]),
  ("delaunay_triangle".toList, [.lit "stroke-opacity:1.0;stroke-linejoin:round;fill:".toList, .slot true "delaunay_triangle_fill".toList, .lit ";stroke-width:".toList, .slot true "delaunay_triangle_stroke_width".toList, .lit ";stroke:".toList, .slot true "delaunay_triangle_stroke".toList, .lit ";".toList])]

/-- Specification: the defaults of `voronoi.py`. -/
def voronoiSettings : List (Str × Default) := [
  ("voronoi_stroke_width".toList, .len "3".toList none .pt),
  ("voronoi_stroke".toList, .word "#000000".toList),
  ("delaunay_stroke_width".toList, .len "3".toList none .pt),
  ("delaunay_stroke".toList, .word "#000000".toList),
  ("delaunay_triangle_fill".toList, .word "none".toList),
  ("delaunay_triangle_stroke_width".toList, .len "1".toList none .pt),
  ("delaunay_triangle_stroke".toList, .word "#000000".toList)]

/-- Specification: the templates of `cam/gcodesvg.py`, in pieces. -/
def previewPieces : List (Str × List Piece) := [
  ("toolpath_end_marker".toList, [.lit "fill-rule:evenodd;fill:".toList, .slot false "feedline_stroke".toList, .lit ";stroke:none;marker-start:none".toList]),
  ("movepath_end_marker".toList, [.lit "fill-rule:evenodd;fill:".toList, .slot false "moveline_stroke".toList, .lit ";stroke:none;marker-start:none".toList]),
  ("feedline".toList, [.lit "fill:none;stroke:".toList, .slot false "feedline_stroke".toList, .lit ";stroke-width:".toList, .slot false "feedline_stroke_width".toList, .lit ";stroke-opacity:1.0;marker-end:url(#PreviewLineEnd0)".toList]),
  ("feedarc".toList, [.lit "fill:none;stroke:".toList, .slot false "feedline_stroke".toList, .lit ";stroke-width:".toList, .slot false "feedline_stroke_width".toList, .lit ";stroke-linecap:butt;stroke-linejoin:miter;stroke-miterlimit:4;stroke-opacity:1.0;marker-end:url(#PreviewLineEnd0)".toList]),
  ("moveline".toList, [.lit "fill:none;stroke:".toList, .slot false "moveline_stroke".toList, .lit ";stroke-width:".toList, .slot false "moveline_stroke_width".toList, .lit ";marker-end:url(#PreviewLineEnd2)".toList]),
  ("toolmark".toList, [.lit "fill:none;stroke:".toList, .slot false "toolmark_stroke".toList, .lit ";stroke-width:".toList, .slot false "toolmark_stroke_width".toList, .lit ";stroke-opacity:0.75".toList]),
  ("toolmark_outline".toList, [.lit "fill:".toList, .slot false "tm_outline_fill".toList, .lit ";stroke:".toList, .slot false "tm_outline_stroke".toList, .lit ";stroke-width:".toList, .slot false "tm_outline_stroke_width".toList, .lit ";stroke-opacity:0.75;fill-opacity:0.5;".toList]),
  ("tooloffset".toList, [.lit "fill:none;stroke:".toList, .slot false "tooloffset_stroke".toList, .lit ";stroke-width:".toList, .slot false "tooloffset_stroke_width".toList, .lit ";stroke-opacity:0.75".toList]),
  ("subpath".toList, [.lit "fill:none;stroke:".toList, .slot false "subpath_stroke".toList, .lit ";stroke-width:".toList, .slot false "subpath_stroke_width".toList, .lit ";".toList])]

/-- Specification: the defaults of `cam/gcodesvg.py`. -/
def previewSettings : List (Str × Default) := [
  ("feedline_stroke".toList, .word "#ff3030".toList),
  ("moveline_stroke".toList, .word "#10cc10".toList),
  ("toolmark_stroke".toList, .word "#ff6060".toList),
  ("tooloffset_stroke".toList, .word "#3030ff".toList),
  ("tm_outline_stroke".toList, .word "#30ff30".toList),
  ("tm_outline_stroke_width".toList, .len "1".toList none .px),
  ("tm_outline_fill".toList, .word "#a0a0a0".toList),
  ("subpath_stroke".toList, .word "#000000".toList),
  ("subpath_stroke_width".toList, .len "1".toList none .px)]

/-- Specification: the settings of the three scales of the preview. -/
def previewScaleSettings : List (Str × List (Str × Default)) := [
  ("small".toList, [("feedline_stroke_width".toList, .len "1".toList none .px), ("moveline_stroke_width".toList, .len "1".toList none .px), ("toolmark_stroke_width".toList, .len "1".toList none .px), ("tooloffset_stroke_width".toList, .len "1".toList none .px), ("end_marker_scale".toList, .word "0.38".toList)]),
  ("medium".toList, [("feedline_stroke_width".toList, .len "1".toList none .pt), ("moveline_stroke_width".toList, .len "1".toList none .pt), ("toolmark_stroke_width".toList, .len "1".toList none .pt), ("tooloffset_stroke_width".toList, .len "1".toList none .pt), ("end_marker_scale".toList, .word "0.38".toList)]),
  ("large".toList, [("feedline_stroke_width".toList, .len "2".toList none .pt), ("moveline_stroke_width".toList, .len "2".toList none .pt), ("toolmark_stroke_width".toList, .len "2".toList none .pt), ("tooloffset_stroke_width".toList, .len "1".toList (some "5".toList) .pt), ("end_marker_scale".toList, .word "0.38".toList)])]

/-! ## The tables -/

/-- The default suits its name (decidable). -/
def Default.okFor (k : Str) : Default → Bool
  | .len ip frac _ => isSizeKey k && ip.all isDig && (frac.getD []).all isDig && !(ip ++ frac.getD []).isEmpty
  | .word _ => !isSizeKey k

/-- The two tables of an extension say the same as the pieces and settings. -/
def TableOk (templates defaults : List (Str × Str)) (ps : List (Str × List Piece)) (ds : List (Str × Default)) : Prop :=
  templates = ps.map (fun t => (t.1, render t.2)) ∧ defaults = ds.map (fun d => (d.1, d.2.text)) ∧
  (ds.map fun d => (d.1, d.2)) = (ds.map Prod.fst).map (fun k => (k, (ds.lookup k).getD (.word []))) ∧ (∀ d ∈ ds, d.2.okFor d.1 = true) ∧
  (∀ t ∈ ps, WellFormed t.2) ∧ ∀ t ∈ ps, ∀ n ∈ slotNames t.2, n ∈ ds.map Prod.fst

instance (a b c d) : Decidable (TableOk a b c d) := by unfold TableOk; infer_instance

theorem setting_val (d : Default) : d.setting.val = .text d.text := by cases d <;> rfl

theorem okFor_suits {k : Str} {d : Default} (h : d.okFor k = true) : d.setting.Suits k := by
  cases d with
  | len ip frac u =>
    simp only [Default.okFor, Bool.and_eq_true, Bool.not_eq_true'] at h
    obtain ⟨⟨⟨h1, h2⟩, h3⟩, h4⟩ := h
    refine ⟨⟨⟨h2, ?_, ?_, ?_⟩, ?_⟩, (isSizeKey_iff k).1 h1⟩
    · intro ds hd
      simp only [lengthOf] at hd
      subst hd
      exact h3
    · intro e
      simp only [lengthOf] at e
      rw [e] at h4
      simp at h4
    · intro u s ds hd
      simp [lengthOf] at hd
    · simp [lengthOf]
  | word s =>
    simp only [Default.okFor, Bool.not_eq_true'] at h
    intro hk
    rw [(isSizeKey_iff k).2 hk] at h
    simp at h

/-- The settings suit the names they are for. -/
def Suitable (ds : List (Str × Default)) (opts : Str → Option Setting) : Prop := ∀ k ∈ ds.map Prod.fst, ∀ s, opts k = some s → s.Suits k

/-- What a style looks like: the template with every name replaced by the user's setting, or the default if there is none. -/
noncomputable def styleOf (env : NumEnv ℝ) (c : Conv ℝ) (scale : ℝ) (fmt : ℝ → Str) (opts : Str → Option Setting) (ds : List (Str × Default)) (ps : List Piece) : Str :=
  filledIn (fun n => (used opts (defaultOf ds) n).written env c scale fmt) ps

theorem extStyles_spec (env : NumEnv ℝ) {c : Conv ℝ} (hc : c.Positive) (scale : ℝ) (fmt : ℝ → Str) {templates defaults : List (Str × Str)} {ps : List (Str × List Piece)} {ds : List (Str × Default)}
    (h : TableOk templates defaults ps ds) (opts : Str → Option Setting) (hs : Suitable ds opts) :
    extStyles (fun t => unit2uu env c scale (.text t) "px".toList) fmt templates defaults (some fun k => (opts k).map Setting.val) =
      .ok (ps.map fun t => (t.1, styleOf env c scale fmt opts ds t.2)) := by
  obtain ⟨h1, h2, h3, h4, h5, h6⟩ := h
  have hd : (defaults.map fun d => (d.1, some (Val.text d.2 : Val ℝ))) = (ds.map Prod.fst).map fun k => (k, some (defaultOf ds k).val) := by
    have := congrArg (List.map fun d : Str × Default => (d.1, some (Val.text d.2.text : Val ℝ))) h3
    rw [List.map_map, List.map_map] at this
    rw [h2, List.map_map]
    refine this.trans ?_
    apply List.map_congr_left
    intro k _
    simp only [Function.comp, defaultOf, setting_val]
  have hlook : ∀ k ∈ ds.map Prod.fst, ∃ d, ds.lookup k = some d ∧ (k, d) ∈ ds := by
    intro k hk
    have hex : ∃ d, ds.lookup k = some d := by
      cases hl : ds.lookup k with
      | some d => exact ⟨d, rfl⟩
      | none =>
        exfalso
        rw [List.lookup_eq_none_iff] at hl
        obtain ⟨p, hp, rfl⟩ := List.mem_map.1 hk
        have := hl p hp
        simp at this
    obtain ⟨d, hd⟩ := hex
    refine ⟨d, hd, ?_⟩
    have hm : (k, (ds.lookup k).getD (.word [])) ∈ (ds.map Prod.fst).map (fun k => (k, (ds.lookup k).getD (.word []))) := List.mem_map_of_mem hk
    rw [← h3, hd] at hm
    simpa using hm
  unfold extStyles
  rw [hd, h1]
  refine C160_styles env hc scale fmt opts (defaultOf ds) (ds.map Prod.fst) ?_ ps h5 h6
  intro k hk
  unfold used
  cases ho : opts k with
  | some s => exact hs k hk s ho
  | none =>
    obtain ⟨d, e1, e2⟩ := hlook k hk
    simp only [Option.getD_none, defaultOf, e1, Option.getD_some]
    exact okFor_suits (h4 _ e2)

theorem templateMap_none {K : Type} [PyTrig K] (unit : Str → Except PyErr K) : ∀ (d : List (Str × Option (Val K))), templateMap unit none d = templateMap unit (some fun _ => none) d := by
  intro d
  induction d with
  | nil => rfl
  | cons e d ih =>
    unfold templateMap
    rw [ih]
    rfl

theorem extStyles_none {K : Type} [PyTrig K] (unit : Str → Except PyErr K) (fmt : K → Str) (templates defaults : List (Str × Str)) :
    extStyles unit fmt templates defaults none = extStyles unit fmt templates defaults (some fun _ => none) := by
  unfold extStyles stylesFromTemplates
  rw [templateMap_none]

theorem polypath_ok : TableOk polypathTemplates polypathDefaults polypathPieces polypathSettings := by decide +kernel
theorem pipelines_ok : TableOk pipelinesTemplates pipelinesDefaults pipelinesPieces pipelinesSettings := by decide +kernel
theorem colorcount_ok : TableOk colorcountTemplates colorcountDefaults colorcountPieces colorcountSettings := by decide +kernel
theorem lines_ok : TableOk linesTemplates linesDefaults linesPieces linesSettings := by decide +kernel
theorem polysmooth_ok : TableOk polysmoothTemplates polysmoothDefaults polysmoothPieces polysmoothSettings := by decide +kernel
theorem quasink_ok : TableOk quasinkTemplates quasinkDefaults quasinkPieces quasinkSettings := by decide +kernel
theorem voronoi_ok : TableOk voronoiTemplates voronoiDefaults voronoiPieces voronoiSettings := by decide +kernel

/-- Specification: the styles an extension ends up with are those of its templates with the user's settings. -/
def UsesSettings (templates defaults : List (Str × Str)) (ps : List (Str × List Piece)) (ds : List (Str × Default)) : Prop :=
  ∀ (env : NumEnv ℝ) (c : Conv ℝ), c.Positive → ∀ (scale : ℝ) (fmt : ℝ → Str) (opts : Str → Option Setting), Suitable ds opts →
    extStyles (fun t => unit2uu env c scale (.text t) "px".toList) fmt templates defaults (some fun k => (opts k).map Setting.val) =
      .ok (ps.map fun t => (t.1, styleOf env c scale fmt opts ds t.2))

/-- **C160 (extensions).**  For all settings, page scales and sizes of `em` and `ex`: every extension gets the style of every template without an exception, with the user's settings for the
names in the template, the defaults for those without a setting, and all lengths in user units. -/
theorem C160_extensions :
    UsesSettings polypathTemplates polypathDefaults polypathPieces polypathSettings ∧ UsesSettings pipelinesTemplates pipelinesDefaults pipelinesPieces pipelinesSettings ∧
    UsesSettings colorcountTemplates colorcountDefaults colorcountPieces colorcountSettings ∧ UsesSettings linesTemplates linesDefaults linesPieces linesSettings ∧
    UsesSettings polysmoothTemplates polysmoothDefaults polysmoothPieces polysmoothSettings ∧ UsesSettings quasinkTemplates quasinkDefaults quasinkPieces quasinkSettings ∧
    UsesSettings voronoiTemplates voronoiDefaults voronoiPieces voronoiSettings :=
  ⟨fun env _ hc scale fmt opts hs => extStyles_spec env hc scale fmt polypath_ok opts hs, fun env _ hc scale fmt opts hs => extStyles_spec env hc scale fmt pipelines_ok opts hs,
    fun env _ hc scale fmt opts hs => extStyles_spec env hc scale fmt colorcount_ok opts hs, fun env _ hc scale fmt opts hs => extStyles_spec env hc scale fmt lines_ok opts hs,
    fun env _ hc scale fmt opts hs => extStyles_spec env hc scale fmt polysmooth_ok opts hs, fun env _ hc scale fmt opts hs => extStyles_spec env hc scale fmt quasink_ok opts hs,
    fun env _ hc scale fmt opts hs => extStyles_spec env hc scale fmt voronoi_ok opts hs⟩

/-- **C160, refuted (settings without effect).**  The stroke settings of the graph paths (`--polysegpath-stroke`, `--polysegpath-stroke-width`, `--hull-stroke`, `--hull-stroke-width`) are options of
the extension, but no setting whatsoever of any of its options changes any of its styles: the templates use other names. -/
theorem C160_polypath_refuted : (∀ n ∈ ["polysegpath_stroke", "polysegpath_stroke_width", "hull_stroke", "hull_stroke_width"], n.toList ∈ polypathOptions) ∧
    ∀ (K : Type) [PyTrig K] (unit : Str → Except PyErr K) (fmt : K → Str) (opts : Str → Option (Val K)), (∀ k v, opts k = some v → k ∈ polypathOptions) →
      extStyles unit fmt polypathTemplates polypathDefaults (some opts) = extStyles unit fmt polypathTemplates polypathDefaults none := by
  refine ⟨by decide +kernel, ?_⟩
  intro K _ unit fmt opts ho
  rw [extStyles_none]
  have hno : ∀ k ∈ polypathDefaults.map Prod.fst, opts k = none := by
    intro k hk
    cases h : opts k with
    | none => rfl
    | some v =>
      have h1 := ho k v h
      have h2 : ∀ k ∈ polypathDefaults.map Prod.fst, k ∉ polypathOptions := by decide +kernel
      exact absurd h1 (h2 k hk)
  have key : ∀ d : List (Str × Str), (∀ k ∈ d.map Prod.fst, opts k = none) →
      templateMap unit (some opts) (d.map fun d => (d.1, some (Val.text d.2))) = templateMap unit (some fun _ => none) (d.map fun d => (d.1, some (Val.text d.2))) := by
    intro d
    induction d with
    | nil => intro _; rfl
    | cons e d ih =>
      intro h
      rw [List.map_cons]
      unfold templateMap
      rw [ih (fun k hk => h k (by simp only [List.map_cons, List.mem_cons]; exact Or.inr hk))]
      have : opts e.1 = none := h e.1 (by simp)
      simp [chosen, this]
  unfold extStyles stylesFromTemplates
  rw [key polypathDefaults hno]

/-- Non-vacuity: one setting of the smoothing extension, one default in points. -/
example (env : NumEnv ℝ) (fmt : ℝ → Str) : Suitable polysmoothSettings (fun k => if k = "polysmooth_stroke".toList then some (.word "red".toList) else none) ∧
    styleOf env Conv.default 2 fmt (fun k => if k = "polysmooth_stroke".toList then some (.word "red".toList) else none) polysmoothSettings
      [.lit "stroke-width:".toList, .slot true "polysmooth_stroke_width".toList, .lit ";stroke:".toList, .slot true "polysmooth_stroke".toList] =
      "stroke-width:".toList ++ (fmt (env.ofDec false 1 0 * 1 * 2) ++ ";stroke:red".toList) := by
  refine ⟨?_, ?_⟩
  · intro k hk s hs
    simp only [Option.ite_none_right_eq_some, Option.some.injEq] at hs
    obtain ⟨rfl, rfl⟩ := hs
    show ¬ IsLengthName _
    rw [← isSizeKey_iff]
    decide
  · have e1 : polysmoothSettings.lookup "polysmooth_stroke_width".toList = some (.len "1".toList none .px) := by decide +kernel
    have e2 : ("polysmooth_stroke_width".toList = "polysmooth_stroke".toList) = False := by
      simp only [eq_iff_iff, iff_false]; decide
    simp only [styleOf, filledIn, List.flatMap_cons, List.flatMap_nil, used, if_true, Option.getD_some, Setting.written, e2, if_false, Option.getD_none, defaultOf, e1, Default.setting, lengthOf,
      LenUnit.size, Numeral.value, Numeral.negative, Numeral.exponent, expValue, Option.getD_none, List.append_nil]
    rfl

end Verif.Ext
