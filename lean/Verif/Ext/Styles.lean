import Verif.Svg.Templates

/-!
# Model of the styles of the extensions

The tables are generated from the source.  `styles_from_templates` is called by every extension (`polypath.py:127-130`, `pipelines.py:84-87`, `colorcount.py:83-86`, `lines.py:245-246`, `polysmooth.py:72-73`,
`quasink.py:300-301`, `voronoi.py:86-88`) and by the preview of the G code (`cam/gcodesvg.py:175-179`).
-/

set_option linter.unusedSectionVars false

namespace Verif.Ext
open Verif PyFloat PyTrig Svg Css

/-- `_styles` (`polypath.py:88-106`). -/
def polypathTemplates : List (Str × Str) := [
  ("dot".toList, "fill:%s;stroke-width:1px;stroke:#000000;".toList),
  ("polyhull".toList, "fill:none;stroke-opacity:1.0;stroke-linejoin:round;stroke-width:${polyhull_stroke_width};stroke:${polyhull_stroke};".toList),
  ("polychain".toList, "fill:none;stroke-opacity:0.8;stroke-linejoin:round;stroke-width:${polychain_stroke_width};stroke:${polychain_stroke};".toList),
  ("polypath0".toList, "fill:none;stroke-opacity:0.8;stroke-linejoin:round;stroke-width:${polypath_stroke_width};stroke:${polypath_stroke};".toList),
  ("polypath".toList, "fill:none;stroke-opacity:0.8;stroke-linejoin:round;stroke-width:${polypath_stroke_width};stroke:${polypath_stroke};".toList),
  ("convexhull".toList, "fill:none;stroke-opacity:1.0;stroke-linejoin:round;stroke-width:${convexhull_stroke_width};stroke:${convexhull_stroke};".toList)]

/-- `_style_defaults` (`polypath.py:108-117`). -/
def polypathDefaults : List (Str × Str) := [
  ("polyhull_stroke_width".toList, "3pt".toList),
  ("polyhull_stroke".toList, "#505050".toList),
  ("polychain_stroke_width".toList, "3pt".toList),
  ("polychain_stroke".toList, "#00ff00".toList),
  ("polypath_stroke_width".toList, "3pt".toList),
  ("polypath_stroke".toList, "#3090c0".toList),
  ("convexhull_stroke_width".toList, "3pt".toList),
  ("convexhull_stroke".toList, "#ff9030".toList)]

/-- The names of the options (`polypath.py:40-85`) and of those every extension has (`inkscape/inkext.py:100-125`). -/
def polypathOptions : List Str := [
  "epsilon".toList, "polysegpath_draw".toList, "polysegpath_longest".toList, "polysegpath_min_length".toList, "polysegpath_max".toList, "polysegpath_type".toList, "polysegpath_stroke".toList, "polysegpath_stroke_width".toList, "polyoffset_draw".toList, "polyoffset_recurs".toList, "polyoffset_jointype".toList, "polyoffset_offset".toList, "polyoffset_fillet".toList, "polyoffset_fillet_radius".toList, "convex_hull_draw".toList, "hull_draw".toList, "hull_inner_draw".toList, "hull_stroke".toList, "hull_stroke_width".toList, "hull2_draw".toList, "hull2_clip".toList, "hull2_draw_rays".toList, "hull2_max_angle".toList, "ids".toList, "selected_nodes".toList, "active_tab".toList, "output_file".toList, "doc_width".toList, "doc_height".toList, "doc_units".toList, "create_debug_layer".toList, "log_create".toList, "log_level".toList, "log_filename".toList]

/-- `_styles` (`pipelines.py:53-65`). -/
def pipelinesTemplates : List (Str × Str) := [
  ("dot".toList, "fill:%s;stroke-width:1px;stroke:#000000;".toList),
  ("pipeline".toList, "fill:none;stroke-opacity:1.0;stroke-linejoin:round;stroke-width:${pipeline_stroke_width};stroke:${pipeline_stroke};".toList)]

/-- `_style_defaults` (`pipelines.py:67-74`). -/
def pipelinesDefaults : List (Str × Str) := [
  ("pipeline_stroke_width".toList, "3pt".toList),
  ("pipeline_stroke".toList, "#505050".toList)]

/-- `_styles` (`colorcount.py:53-66`). -/
def colorcountTemplates : List (Str × Str) := [
  ("keytext".toList, "font-family:Arial;font-size:$key_font_size;fill:#000000;stroke:none;".toList),
  ("tagtext".toList, "font-family:Arial;font-size:$tag_font_size;fill:#000000;stroke:none;".toList),
  ("colorbox".toList, "fill:%s;stroke:#606060;stroke-width:$colorbox_stroke_width".toList),
  ("keyshape".toList, "fill:none;stroke:#000000;stroke-width:$shapekey_stroke_width;".toList)]

/-- `_style_defaults` (`colorcount.py:68-73`). -/
def colorcountDefaults : List (Str × Str) := [
  ("key_font_size".toList, "12pt".toList),
  ("tag_font_size".toList, "9pt".toList),
  ("colorbox_stroke_width".toList, "1pt".toList),
  ("shapekey_stroke_width".toList, "1pt".toList)]

/-- `_styles` (`lines.py:198-207`). -/
def linesTemplates : List (Str × Str) := [
  ("h_line".toList, "fill:none;stroke-linejoin:round;stroke:$h_stroke;stroke-width:$h_stroke_width;stroke-opacity:$h_stroke_opacity;".toList),
  ("v_line".toList, "fill:none;stroke-linejoin:round;stroke:$v_stroke;stroke-width:$v_stroke_width;stroke-opacity:$v_stroke_opacity;".toList)]

/-- `_style_defaults` (`lines.py:208-215`). -/
def linesDefaults : List (Str × Str) := [
  ("h_stroke".toList, "#c0c0c0".toList),
  ("h_stroke_width".toList, "1pt".toList),
  ("h_stroke_opacity".toList, "1".toList),
  ("v_stroke".toList, "#c0c0c0".toList),
  ("v_stroke_width".toList, "1pt".toList),
  ("v_stroke_opacity".toList, "1".toList)]

/-- `_styles` (`polysmooth.py:51-56`). -/
def polysmoothTemplates : List (Str × Str) := [
  ("polysmooth".toList, "fill:none;stroke-opacity:1.0;stroke-linejoin:round;stroke-width:${polysmooth_stroke_width};stroke:${polysmooth_stroke};".toList)]

/-- `_style_defaults` (`polysmooth.py:58-61`). -/
def polysmoothDefaults : List (Str × Str) := [
  ("polysmooth_stroke_width".toList, "1px".toList),
  ("polysmooth_stroke".toList, "#000".toList)]

/-- `_styles` (`quasink.py:66-104`). -/
def quasinkTemplates : List (Str × Str) := [
  ("infotext".toList, "font-size:.2;font-style:normal;font-weight:normal;line-height:125%;letter-spacing:0px;word-spacing:0px;fill:#000000;fill-opacity:1;stroke:none;font-family:Sans".toList),
  ("dot".toList, "fill:%s;stroke-width:.2;stroke:#000000;".toList),
  ("frame".toList, "fill:none;stroke-width:%s;stroke:#504030;".toList),
  ("margins".toList, "fill:none;stroke-width:.1;stroke:#3030ff;".toList),
  ("bbox".toList, "fill:none;stroke-width:.1;stroke:#30f090;".toList),
  ("polygon".toList, "fill:none;stroke-opacity:1.0;stroke-linejoin:round;stroke-width:$polygon_stroke_width;stroke:$polygon_stroke;".toList),
  ("polygon_filled".toList, "fill:%s;stroke:%s;stroke-width:$polygon_fill_stroke_width;".toList),
  ("polygon_circle".toList, "stroke-opacity:1.0;stroke-linejoin:round;fill:none;stroke-width:.1;stroke:#903030;".toList),
  ("polygon_ellipse".toList, "stroke-opacity:1.0;stroke-linejoin:round;fill:none;stroke-width:.1;stroke:#306060;".toList),
  ("polyseg".toList, "fill:none;stroke-opacity:0.8;stroke-width:$polyseg_stroke_width;stroke:$polyseg_stroke;".toList),
  ("polyseg_color".toList, "fill:none;stroke-opacity:0.8;stroke-width:$polyseg_stroke_width;stroke:%s;".toList),
  ("segment".toList, "fill:none;stroke-opacity:0.8;stroke-width:$segment_stroke_width;stroke:$segment_stroke;".toList),
  ("segbox".toList, "fill:%s;stroke:None".toList),
  ("segchain".toList, "fill:%s;fill-opacity:0.5;stroke-opacity:0.75;stroke-linejoin:round;stroke-width:$segchain_stroke_width;stroke:$segchain_stroke;".toList)]

/-- `_style_defaults` (`quasink.py:105-118`). -/
def quasinkDefaults : List (Str × Str) := [
  ("infotext_size".toList, "12pt".toList),
  ("margin_stroke_width".toList, ".1in".toList),
  ("margin_stroke".toList, "#000000".toList),
  ("polygon_fill_stroke_width".toList, "1px".toList),
  ("polygon_stroke_width".toList, "3pt".toList),
  ("polygon_stroke".toList, "#00ff00".toList),
  ("polyseg_stroke_width".toList, ".1in".toList),
  ("polyseg_stroke".toList, "#000000".toList),
  ("segment_stroke_width".toList, "3pt".toList),
  ("segment_stroke".toList, "#000000".toList),
  ("segchain_stroke_width".toList, "1pt".toList),
  ("segchain_stroke".toList, "#000000".toList)]

/-- `_styles` (`voronoi.py:54-68`). -/
def voronoiTemplates : List (Str × Str) := [
  ("voronoi".toList, "fill:none;stroke-opacity:1.0;stroke-linejoin:round;stroke-width:${voronoi_stroke_width};stroke:${voronoi_stroke};".toList),
  ("delaunay".toList, "fill:none;stroke-opacity:1.0;stroke-linejoin:round;stroke-width:${delaunay_stroke_width};stroke:${delaunay_stroke};".toList),
  ("delaunay_triangle".toList, "stroke-opacity:1.0;stroke-linejoin:round;fill:${delaunay_triangle_fill};stroke-width:${delaunay_triangle_stroke_width};stroke:${delaunay_triangle_stroke};".toList)]

/-- `_STYLE_DEFAULTS` (`voronoi.py:70-78`). -/
def voronoiDefaults : List (Str × Str) := [
  ("voronoi_stroke_width".toList, "3pt".toList),
  ("voronoi_stroke".toList, "#000000".toList),
  ("delaunay_stroke_width".toList, "3pt".toList),
  ("delaunay_stroke".toList, "#000000".toList),
  ("delaunay_triangle_fill".toList, "none".toList),
  ("delaunay_triangle_stroke_width".toList, "1pt".toList),
  ("delaunay_triangle_stroke".toList, "#000000".toList)]

/-- `_styles` (`cam/gcodesvg.py:32-68`). -/
def previewTemplates : List (Str × Str) := [
  ("toolpath_end_marker".toList, "fill-rule:evenodd;fill:$feedline_stroke;stroke:none;marker-start:none".toList),
  ("movepath_end_marker".toList, "fill-rule:evenodd;fill:$moveline_stroke;stroke:none;marker-start:none".toList),
  ("feedline".toList, "fill:none;stroke:$feedline_stroke;stroke-width:$feedline_stroke_width;stroke-opacity:1.0;marker-end:url(#PreviewLineEnd0)".toList),
  ("feedarc".toList, "fill:none;stroke:$feedline_stroke;stroke-width:$feedline_stroke_width;stroke-linecap:butt;stroke-linejoin:miter;stroke-miterlimit:4;stroke-opacity:1.0;marker-end:url(#PreviewLineEnd0)".toList),
  ("moveline".toList, "fill:none;stroke:$moveline_stroke;stroke-width:$moveline_stroke_width;marker-end:url(#PreviewLineEnd2)".toList),
  ("toolmark".toList, "fill:none;stroke:$toolmark_stroke;stroke-width:$toolmark_stroke_width;stroke-opacity:0.75".toList),
  ("toolmark_outline".toList, "fill:$tm_outline_fill;stroke:$tm_outline_stroke;stroke-width:$tm_outline_stroke_width;stroke-opacity:0.75;fill-opacity:0.5;".toList),
  ("tooloffset".toList, "fill:none;stroke:$tooloffset_stroke;stroke-width:$tooloffset_stroke_width;stroke-opacity:0.75".toList),
  ("subpath".toList, "fill:none;stroke:$subpath_stroke;stroke-width:$subpath_stroke_width;".toList)]

/-- `_style_defaults` (`cam/gcodesvg.py:70-80`). -/
def previewDefaults : List (Str × Str) := [
  ("feedline_stroke".toList, "#ff3030".toList),
  ("moveline_stroke".toList, "#10cc10".toList),
  ("toolmark_stroke".toList, "#ff6060".toList),
  ("tooloffset_stroke".toList, "#3030ff".toList),
  ("tm_outline_stroke".toList, "#30ff30".toList),
  ("tm_outline_stroke_width".toList, "1px".toList),
  ("tm_outline_fill".toList, "#a0a0a0".toList),
  ("subpath_stroke".toList, "#000000".toList),
  ("subpath_stroke_width".toList, "1px".toList)]

/-- `_style_scale_defaults` (`cam/gcodesvg.py:81-100`). -/
def previewScales : List (Str × List (Str × Str)) := [
  ("small".toList, [("feedline_stroke_width".toList, "1px".toList), ("moveline_stroke_width".toList, "1px".toList), ("toolmark_stroke_width".toList, "1px".toList), ("tooloffset_stroke_width".toList, "1px".toList), ("end_marker_scale".toList, "0.38".toList)]),
  ("medium".toList, [("feedline_stroke_width".toList, "1pt".toList), ("moveline_stroke_width".toList, "1pt".toList), ("toolmark_stroke_width".toList, "1pt".toList), ("tooloffset_stroke_width".toList, "1pt".toList), ("end_marker_scale".toList, "0.38".toList)]),
  ("large".toList, [("feedline_stroke_width".toList, "2pt".toList), ("moveline_stroke_width".toList, "2pt".toList), ("toolmark_stroke_width".toList, "2pt".toList), ("tooloffset_stroke_width".toList, "1.5pt".toList), ("end_marker_scale".toList, "0.38".toList)])]

section
variable {K : Type} [PyTrig K]

/-- `self.svg.styles_from_templates(self._styles, self._style_defaults, options)`; the defaults are texts. -/
def extStyles (unit : Str → Except PyErr K) (fmt : K → Str) (templates defaults : List (Str × Str)) (opts : Option (Str → Option (Val K))) : Except PyErr (List (Str × Str)) :=
  stylesFromTemplates unit fmt templates (defaults.map fun d => (d.1, some (Val.text d.2))) opts

/-! ## Line grids -/

/-- The options of the lines for their style (`lines.py:115-131`). -/
structure LineCss (K : Type) where
  cssDefault : Bool
  hStroke : Str
  hWidth : K
  hOpacity : K
  copyCss : Bool
  vStroke : Str
  vWidth : K
  vOpacity : K

/-- `self.options` as a dictionary, of the names that matter here. -/
def LineCss.dict (o : LineCss K) (k : Str) : Option (Val K) :=
  if k = "h_stroke".toList then some (.text o.hStroke)
  else if k = "h_stroke_width".toList then some (.num o.hWidth)
  else if k = "h_stroke_opacity".toList then some (.num o.hOpacity)
  else if k = "v_stroke".toList then some (.text o.vStroke)
  else if k = "v_stroke_width".toList then some (.num o.vWidth)
  else if k = "v_stroke_opacity".toList then some (.num o.vOpacity)
  else none

/-- A width of 0 becomes one point (`lines.py:225-226`, `236-237`). -/
def orPoint (unit : Str → Except PyErr K) (w : K) : Except PyErr K := if isZeroF w then unit "1pt".toList else .ok w

/-- The colour, width and opacity of the horizontal lines (`lines.py:223-228`). -/
def hCss (cenv : CssEnv) (unit : Str → Except PyErr K) (o : LineCss K) : Except PyErr (LineCss K) := do
  let h ← csscolorToCssrgb cenv (.text o.hStroke : Color K)
  let hw ← orPoint unit o.hWidth
  pure { o with hStroke := h, hWidth := hw, hOpacity := if isZeroF o.hOpacity then lit 1 1 else o.hOpacity }

/-- The same for the vertical lines (`lines.py:229-239`); the opacity tested and set is again that of the horizontal lines. -/
def vCss (cenv : CssEnv) (unit : Str → Except PyErr K) (o : LineCss K) : Except PyErr (LineCss K) :=
  if o.copyCss then .ok { o with vStroke := o.hStroke, vWidth := o.hWidth, vOpacity := o.hOpacity }
  else do
    let v ← csscolorToCssrgb cenv (.text o.vStroke : Color K)
    let vw ← orPoint unit o.vWidth
    pure { o with vStroke := v, vWidth := vw, hOpacity := if isZeroF o.hOpacity then lit 1 1 else o.hOpacity }

/-- The styles of the line grids (`lines.py:222-246`). -/
def lineStyles (cenv : CssEnv) (unit : Str → Except PyErr K) (fmt : K → Str) (o : LineCss K) : Except PyErr (List (Str × Str)) :=
  if o.cssDefault then extStyles unit fmt linesTemplates linesDefaults none
  else do
    let o ← hCss cenv unit o
    let o ← vCss cenv unit o
    extStyles unit fmt linesTemplates linesDefaults (some o.dict)

/-! ## The preview of the G code -/

/-- The class attributes `_styles` and `_style_defaults` of the plotter, which its constructor changes (`cam/gcodesvg.py:175-179`). -/
structure PlotterClass where
  templates : List (Str × Str)
  defaults : List (Str × Str)

/-- `d.update(new)` of a dictionary. -/
def dictUpdate (d new : List (Str × Str)) : List (Str × Str) :=
  d.map (fun e => (e.1, (new.lookup e.1).getD e.2)) ++ new.filter fun e => e.1 ∉ d.map Prod.fst

/-- The part of the constructor that sets the styles (`cam/gcodesvg.py:175-179`): the styles of this plotter are those of the class. -/
def newPlotter (unit : Str → Except PyErr K) (fmt : K → Str) (cls : PlotterClass) (scale : Str) : Except PyErr PlotterClass :=
  match previewScales.lookup scale with
  | none => .error .keyError
  | some values => do
    let d := dictUpdate cls.defaults values
    let s ← extStyles unit fmt cls.templates d none
    pure ⟨dictUpdate cls.templates s, d⟩

/-- The class when the program starts. -/
def PlotterClass.initial : PlotterClass := ⟨previewTemplates, previewDefaults⟩

end

end Verif.Ext
