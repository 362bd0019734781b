import Verif.Cam.Options

/-!
# The dialogs of the extensions

Written by `tools/dialogs.py` from `/repo/inkinx/*.inx` and the tables of options of the extensions.  A dialog has fields; Inkscape runs the program of
the dialog with `--name=text` for every field.  Texts that only explain are left out, and so is everything that is commented out.
-/

namespace Verif.Cam
open Verif PyFloat PyTrig

/-- The kinds of fields of a dialog. -/
inductive Field
  /-- a number, with or without a fraction (`type="float"`) -/
  | float
  /-- a whole number (`type="int"`) -/
  | int
  /-- a box that is ticked or not (`type="boolean"`) -/
  | flag
  /-- one of some texts (`type="optiongroup"`, and the pages of `type="notebook"`) -/
  | choice (texts : List String)
  /-- any text (`type="string"`) -/
  | free

/-- A dialog (`inkinx/*.inx`): the file, the program it runs, and its fields. -/
structure Dialog where
  file : String
  program : String
  fields : List (String × Field)

/-- The extension programs that exist (`tcnc/*.py`). -/
def programs : List String :=
  ["colorcount.py", "inkext_template.py", "lines.py", "pathshuffler.py", "pipelines.py", "polypath.py", "polysmooth.py", "quasink.py",
   "repeater.py", "sinewave.py", "tcnc.py", "voronoi.py"]

section
variable {K : Type} [PyTrig K]

/-- The options of `colorcount` (`colorcount.py:37-50`). -/
def colorcountOptions : List (OptSpec K) :=
  [optB "separate-layers" true, optS "key-font-size" "12pt", optB "use-shape-key" true, optB "tag-shapes" true, optS "tag-font-size" "9pt",
   optS "tag-prefix" "C", optI "tag-enum-start" 1]

/-- The options of `lines` (`lines.py:35-189`). -/
def linesOptions : List (OptSpec K) :=
  [optB "hline-draw" false, optL "hline-spacing" (ofInt 1), optI "hline-spacing-jitter" 0, optD "hline-angle-jitter" zero,
   optF "hline-angle-kappa" (ofInt 2), optB "hline-varspacing" false, optL "hline-varspacing-min" zero, optL "hline-varspacing-max" zero,
   optF "hline-varspacing-cycles" (ofInt 1), optS "hline-varspacing-formula" "", optB "hline-varspacing-invert" false,
   optD "hline-rotation" zero, optB "hline-reverse-path" false, optB "hline-reverse-order" true, optB "hline-double" true,
   optB "hline-alt" false, optB "hline-connect" false, optI "hline-skip" 1, optI "hline-start" 2, optB "vline-draw" false,
   optL "vline-spacing" (ofInt 1), optI "vline-spacing-jitter" 0, optB "vline-varspacing" false, optL "vline-varspacing-min" zero,
   optL "vline-varspacing-max" zero, optF "vline-varspacing-cycles" (ofInt 1), optS "vline-varspacing-formula" "",
   optB "vline-varspacing-invert" true, optD "vline-rotation" zero, optD "vline-angle-jitter" zero, optF "vline-angle-kappa" (ofInt 2),
   optB "vline-right2left" false, optB "vline-reverse-path" true, optB "vline-reverse-order" true, optB "vline-double" true,
   optB "vline-alt" false, optB "vline-connect" false, optI "vline-skip" 1, optI "vline-start" 2, optB "css-default" false,
   optL "h-stroke-width" (ofInt 1), optF "h-stroke-opacity" (ofInt 1), optS "h-stroke" "#000000", optB "vline-copycss" false,
   optL "v-stroke-width" (ofInt 1), optF "v-stroke-opacity" (ofInt 1), optS "v-stroke" "#000000", optS "sine-waves" "",
   optL "sine-amplitude" (ofInt 1), optL "sine-wavelength" (ofInt 1), optB "grid-layers" false, optB "line-fillet" false,
   optL "line-fillet-radius" zero, optB "hline-vline" false, optB "hv-shuffle" false, optB "gcode-write" false, optB "gcode-no-z" false,
   optB "gcode-no-tangent" false, optF "gcode-speed" (ofInt 100), optS "gcode-path" "~/lines.ngc", optB "sine-line" false,
   optF "sine-start-wavelength" (ofInt 1), optF "sine-end-wavelength" (ofInt 1), optF "sine-start-amplitude" zero,
   optF "sine-end-amplitude" zero, optL "margin-left" zero, optL "margin-right" zero, optL "margin-top" zero, optL "margin-bottom" zero]

/-- The options of `pathshuffler` (`pathshuffler.py:35-42`). -/
def pathshufflerOptions : List (OptSpec K) :=
  [optB "shuffle" true, optB "explode-paths" false, optB "reverse-order" false, optS "method" "shuffle"]

/-- The options of `pipelines` (`pipelines.py:37-50`). -/
def pipelinesOptions : List (OptSpec K) :=
  [optL "epsilon" (lit 1 5), optI "pipeline-count" 3, optB "pipeline-fillet" false, optF "pipeline-fillet-radius" zero,
   optF "pipeline-maxspacing" zero, optS "pipeline-stroke" "#000000", optS "pipeline-stroke-width" "3px"]

/-- The options of `polypath` (`polypath.py:40-85`). -/
def polypathOptions : List (OptSpec K) :=
  [optL "epsilon" (lit 1 5), optB "polysegpath-draw" true, optB "polysegpath-longest" true, optI "polysegpath-min-length" 1,
   optI "polysegpath-max" 1, optI "polysegpath-type" 0, optS "polysegpath-stroke" "#000000", optS "polysegpath-stroke-width" "3px",
   optB "polyoffset-draw" true, optB "polyoffset-recurs" true, optI "polyoffset-jointype" 0, optF "polyoffset-offset" zero,
   optB "polyoffset-fillet" false, optF "polyoffset-fillet-radius" zero, optB "convex-hull-draw" true, optB "hull-draw" true,
   optB "hull-inner-draw" true, optS "hull-stroke" "#000000", optS "hull-stroke-width" "3px", optB "hull2-draw" true, optB "hull2-clip" true,
   optB "hull2-draw-rays" true, optD "hull2-max-angle" (ofInt 180)]

/-- The options of `polysmooth` (`polysmooth.py:34-48`). -/
def polysmoothOptions : List (OptSpec K) :=
  [optB "simplify" false, optL "simplify-tolerance" (lit 1 2), optI "smoothness" 50, optB "new-layer" false, optB "match-style" true,
   ⟨"polysmooth-stroke".toList, .string, .none⟩, ⟨"polysmooth-stroke-width".toList, .string, .none⟩]

/-- The options of `quasink` (`quasink.py:801-882`). -/
def quasinkOptions : List (OptSpec K) :=
  [optL "scale" (ofInt 5), optD "rotate" zero, optI "symmetry" 5, optI "numlines" 30, optL "offset-x" zero, optL "offset-y" zero,
   optF "salt-x" (lit 31416 5), optF "salt-y" (lit 64159 5), optL "epsilon" (lit 1 5), optB "segment-draw" false, optI "segtype-skinny" 0,
   optI "segtype-fat" 0, optF "skinnyfat-ratio" (lit 5 1), optF "segment-ratio" (lit 5 1), optF "segment-scale" (ofInt 1),
   optB "segment-split-cross" false, optI "segment-sort" 0, optB "segbox-fill" true, optB "segbox-layers" true, optB "segpath-draw" false,
   optB "segpath-closed" false, optB "segpath-fillclosed" false, optI "segpath-min-segments" 1, optB "polygon-draw" true, optI "polygon-mult" 0,
   optL "min-rhombus-width" zero, optL "polygon-mult-spacing" zero, optB "polygon-fill" false, optB "polygon-zfill" true,
   optS "polygon-stroke" "#f03030", optS "polygon-fill-lut" "gray10", optI "polygon-fill-lut-offset" 0, optI "polygon-sort" 0,
   optB "ellipse-draw" false, optB "ellipse-cull" false, optL "ellipse-min-radius" (ofInt 1), optL "ellipse-inset" zero,
   optB "polyseg-draw" true, optF "polyseg-scale" (ofInt 1), optS "polyseg-stroke" "#000000", optS "polyseg-stroke-width" ".1in",
   optS "polyseg-lut" "none", optB "polyseg-layer-per-color" false, optB "polyseg-clip-to-margins" true, optB "clip-to-doc" true,
   optB "clip-to-circle" false, optB "clip-to-margins" true, optB "clip-offset-center" false, optB "clip-recenter" false,
   optL "margin-left" zero, optL "margin-right" zero, optL "margin-top" zero, optL "margin-bottom" zero, optB "margin-draw" false,
   optB "frame-draw" false, optL "frame-width" zero, optL "frame-height" zero, optL "frame-thickness" (ofInt 1), optB "project-sphere" false,
   optB "project-invert" false, optB "project-radius-useclip" false, optL "project-radius" zero, optF "blowup-scale" (ofInt 1),
   optB "create-info-layer" false, optB "create-culledrhombus-layer" false]

/-- The options of `repeater` (`repeater.py:37-44`). -/
def repeaterOptions : List (OptSpec K) :=
  [optI "copies" 1, optL "interval" (ofInt 1), optD "angle" zero, optB "new-layer" false]

/-- The options of `sinewave` (`sinewave.py:31-40`). -/
def sinewaveOptions : List (OptSpec K) :=
  [optL "amplitude" (ofInt 1), optL "wavelength" (ofInt 1), optI "cycles" 1, optL "origin_x" zero, optL "origin_y" zero]

/-- The options of `voronoi` (`voronoi.py:42-51`). -/
def voronoiOptions : List (OptSpec K) :=
  [optL "epsilon" (lit 1 4), optB "jiggle-points" true, optB "delaunay-triangles" false, optB "delaunay-edges" false,
   optB "clip-to-polygon" false]

end

/-- The dialog `inkinx/colorcount.inx` (`inkinx/colorcount.inx:1-64`). -/
def colorcountDialog : Dialog :=
  ⟨"colorcount.inx", "colorcount.py",
   [("active-tab", .choice ["options", "options", "debug", "about"]), ("separate-layers", .flag), ("use-shape-key", .flag),
    ("tag-shapes", .flag), ("tag-font-size", .free), ("tag-prefix", .free), ("tag-enum-start", .int), ("create-debug-layer", .flag),
    ("log-create", .flag), ("log-level", .choice ["DEBUG", "INFO", "WARNING", "ERROR", "CRITICAL"]), ("log-filename", .free)]⟩

/-- The dialog `inkinx/inkext_template.inx` (`inkinx/inkext_template.inx:1-46`). -/
def inkextTemplateDialog : Dialog :=
  ⟨"inkext_template.inx", "extension.py",
   [("active-tab", .choice ["first_tab_id", "debug", "about"]), ("create-debug-layer", .flag), ("log-create", .flag),
    ("log-level", .choice ["DEBUG", "INFO", "WARNING", "ERROR", "CRITICAL"]), ("log-filename", .free)]⟩

/-- The dialog `inkinx/lines.inx` (`inkinx/lines.inx:1-214`). -/
def linesDialog : Dialog :=
  ⟨"lines.inx", "lines.py",
   [("active-tab", .choice ["lines1", "lines2", "css", "options2", "margins", "debug", "about"]), ("hline-draw", .flag),
    ("hline-spacing", .float), ("hline-spacing-jitter", .int), ("hline-varspacing-formula", .choice ["", "linear", "log", "sine"]),
    ("hline-varspacing-min", .float), ("hline-varspacing-cycles", .float), ("hline-varspacing-invert", .flag), ("hline-rotation", .float),
    ("hline-angle-jitter", .float), ("hline-angle-kappa", .float), ("hline-reverse-path", .flag), ("hline-double", .flag), ("hline-alt", .flag),
    ("hline-connect", .flag), ("hline-reverse-order", .flag), ("hline-skip", .int), ("hline-start", .int), ("vline-draw", .flag),
    ("vline-spacing", .float), ("vline-spacing-jitter", .int), ("vline-varspacing-formula", .choice ["", "linear", "log", "sine"]),
    ("vline-varspacing-min", .float), ("vline-varspacing-cycles", .float), ("vline-varspacing-invert", .flag), ("vline-rotation", .float),
    ("vline-angle-jitter", .float), ("vline-angle-kappa", .float), ("vline-reverse-path", .flag), ("vline-double", .flag), ("vline-alt", .flag),
    ("vline-connect", .flag), ("vline-reverse-order", .flag), ("vline-skip", .int), ("vline-start", .int), ("css-default", .flag),
    ("h-stroke", .free), ("h-stroke-width", .float), ("h-stroke-opacity", .float), ("vline-copycss", .flag), ("v-stroke", .free),
    ("v-stroke-width", .float), ("v-stroke-opacity", .float), ("grid-layers", .flag), ("hline-vline", .flag), ("hv-shuffle", .flag),
    ("sine-waves", .choice ["", "h", "v", "hv"]), ("sine-amplitude", .float), ("sine-wavelength", .float), ("line-fillet", .flag),
    ("line-fillet-radius", .float), ("gcode-write", .flag), ("gcode-no-z", .flag), ("gcode-no-tangent", .flag), ("gcode-speed", .float),
    ("gcode-path", .free), ("margin-top", .float), ("margin-left", .float), ("margin-right", .float), ("margin-bottom", .float),
    ("create-debug-layer", .flag), ("log-create", .flag), ("log-level", .choice ["DEBUG", "INFO", "WARNING", "ERROR", "CRITICAL"]),
    ("log-filename", .free)]⟩

/-- The dialog `inkinx/nestrect.inx` (`inkinx/nestrect.inx:1-68`). -/
def nestrectDialog : Dialog :=
  ⟨"nestrect.inx", "nestrect.py",
   [("active-tab", .choice ["nestrect", "margins", "debug", "about"]), ("spacing", .float), ("line-width", .float), ("in2out", .flag),
    ("clockwise", .flag), ("rotation", .float), ("start-corner", .choice ["0", "1", "2", "3"]), ("constrain-rect", .flag),
    ("constraint-spacing", .float), ("incr-corner", .flag), ("create-rect-spiral", .flag), ("create-ellipses", .flag),
    ("create-ellipse-spiral", .flag), ("margin-top", .float), ("margin-left", .float), ("margin-right", .float), ("margin-bottom", .float),
    ("create-log", .flag), ("log-level", .choice ["DEBUG", "INFO", "WARNING", "ERROR", "CRITICAL"]), ("log-filename", .free)]⟩

/-- The dialog `inkinx/pathshuffler.inx` (`inkinx/pathshuffler.inx:1-59`). -/
def pathshufflerDialog : Dialog :=
  ⟨"pathshuffler.inx", "pathshuffler.py",
   [("active-tab", .choice ["", "log", "about"]), ("method", .choice ["shuffle", "reverse"]), ("explode-paths", .flag),
    ("create-debug-layer", .flag), ("log-create", .flag), ("log-level", .choice ["DEBUG", "INFO", "WARNING", "ERROR", "CRITICAL"]),
    ("log-filename", .free)]⟩

/-- The dialog `inkinx/pipelines.inx` (`inkinx/pipelines.inx:1-48`). -/
def pipelinesDialog : Dialog :=
  ⟨"pipelines.inx", "pipelines.py",
   [("active-tab", .choice ["pipelines", "debug", "about"]), ("epsilon", .float), ("pipeline-count", .int), ("pipeline-maxspacing", .float),
    ("pipeline-fillet", .flag), ("pipeline-fillet-radius", .float), ("create-debug-layer", .flag), ("log-create", .flag),
    ("log-level", .choice ["DEBUG", "INFO", "WARNING", "ERROR", "CRITICAL"]), ("log-filename", .free)]⟩

/-- The dialog `inkinx/polypath.inx` (`inkinx/polypath.inx:1-78`). -/
def polypathDialog : Dialog :=
  ⟨"polypath.inx", "polypath.py",
   [("active-tab", .choice ["polypath", "polyoffset", "polyhull", "debug", "about"]), ("polysegpath-draw", .flag),
    ("polysegpath-min-length", .int), ("polysegpath-longest", .flag), ("polysegpath-max", .int),
    ("polysegpath-type", .choice ["0", "1", "2", "3"]), ("polyoffset-draw", .flag), ("polyoffset-recurs", .flag),
    ("polyoffset-jointype", .choice ["0", "1", "2"]), ("polyoffset-offset", .float), ("polyoffset-fillet", .flag),
    ("polyoffset-fillet-radius", .float), ("convex-hull-draw", .flag), ("hull-draw", .flag), ("hull-inner-draw", .flag), ("hull2-draw", .flag),
    ("hull2-max-angle", .float), ("hull2-clip", .flag), ("hull2-draw-rays", .flag), ("create-debug-layer", .flag), ("log-create", .flag),
    ("log-level", .choice ["DEBUG", "INFO", "WARNING", "ERROR", "CRITICAL"]), ("log-filename", .free)]⟩

/-- The dialog `inkinx/polysmooth.inx` (`inkinx/polysmooth.inx:1-51`). -/
def polysmoothDialog : Dialog :=
  ⟨"polysmooth.inx", "polysmooth.py",
   [("active-tab", .choice ["polysmooth", "log", "about"]), ("simplify", .flag), ("simplify-tolerance", .float), ("smoothness", .int),
    ("new-layer", .flag), ("match-style", .flag), ("create-debug-layer", .flag), ("log-create", .flag),
    ("log-level", .choice ["DEBUG", "INFO", "WARNING", "ERROR", "CRITICAL"]), ("log-filename", .free)]⟩

/-- The dialog `inkinx/quasink.inx` (`inkinx/quasink.inx:1-183`). -/
def quasinkDialog : Dialog :=
  ⟨"quasink.inx", "quasink.py",
   [
    ("active-tab", .choice ["quasi", "segments", "polygons", "polysegs", "ellipses", "optional", "margins", "projection", "layers", "log", "about"]),
    ("symmetry", .int), ("scale", .float), ("rotate", .float), ("offset-x", .float), ("offset-y", .float), ("segment-draw", .flag),
    ("segpath-draw", .flag), ("segpath-fillclosed", .flag), ("segpath-closed", .flag),
    ("segtype-skinny", .choice ["0", "1", "2", "3", "4", "5", "6", "7"]), ("segtype-fat", .choice ["0", "1", "2", "3", "4", "5", "6", "7"]),
    ("segment-split-cross", .flag), ("skinnyfat-ratio", .float), ("segment-ratio", .float), ("segment-scale", .float), ("segbox-fill", .flag),
    ("segbox-layers", .flag), ("polygon-draw", .flag), ("min-rhombus-width", .float), ("polygon-mult", .int), ("polygon-mult-spacing", .float),
    ("polygon-fill", .flag), ("polygon-zfill", .flag),
    ("polygon-fill-lut", .choice ["gray05", "gray10", "red", "red05", "red10", "green10", "yellow", "yellow05", "yellow10"]),
    ("polygon-fill-lut-offset", .int), ("polygon-sort", .choice ["0", "1", "2"]), ("polyseg-draw", .flag), ("polyseg-scale", .float),
    ("polyseg-stroke-width", .free),
    ("polyseg-lut", .choice ["none", "cmy", "rgb", "rainbow", "gray05", "gray10", "red", "red05", "red10", "yellow", "yellow05", "yellow10"]),
    ("polyseg-layer-per-color", .flag), ("polyseg-clip-to-margins", .flag), ("ellipse-draw", .flag), ("ellipse-cull", .flag),
    ("ellipse-min-radius", .float), ("ellipse-inset", .float), ("numlines", .int), ("salt-x", .float), ("salt-y", .float), ("epsilon", .float),
    ("clip-to-doc", .flag), ("clip-to-margins", .flag), ("clip-to-circle", .flag), ("clip-offset-center", .flag), ("clip-recenter", .flag),
    ("margin-top", .float), ("margin-left", .float), ("margin-right", .float), ("margin-bottom", .float), ("margin-draw", .flag),
    ("project-sphere", .flag), ("project-invert", .flag), ("project-radius-useclip", .flag), ("project-radius", .float),
    ("blowup-scale", .float), ("create-culledrhombus-layer", .flag), ("create-info-layer", .flag), ("create-debug-layer", .flag),
    ("log-create", .flag), ("log-level", .choice ["DEBUG", "INFO", "WARNING", "ERROR", "CRITICAL"]), ("log-filename", .free)]⟩

/-- The dialog `inkinx/repeater.inx` (`inkinx/repeater.inx:1-50`). -/
def repeaterDialog : Dialog :=
  ⟨"repeater.inx", "repeater.py",
   [("active-tab", .choice ["tab1", "log", "about"]), ("copies", .int), ("interval", .float), ("angle", .float), ("new-layer", .flag),
    ("create-debug-layer", .flag), ("log-create", .flag), ("log-level", .choice ["DEBUG", "INFO", "WARNING", "ERROR", "CRITICAL"]),
    ("log-filename", .free)]⟩

/-- The dialog `inkinx/sinewave.inx` (`inkinx/sinewave.inx:1-38`). -/
def sinewaveDialog : Dialog :=
  ⟨"sinewave.inx", "sinewave.py",
   [("active-tab", .choice ["sinewave", "about"]), ("amplitude", .float), ("wavelength", .float), ("cycles", .int), ("origin_x", .float),
    ("origin_y", .float)]⟩

/-- The dialog `inkinx/tcnc.inx` (`inkinx/tcnc.inx:1-236`). -/
def tcncDialog : Dialog :=
  ⟨"tcnc.inx", "tcnc.py",
   [("active-tab", .choice ["options", "tool", "machine", "tolerances", "output", "about", "brush", "extra"]), ("disable-tangent", .flag),
    ("path-split-cusps", .flag), ("path-tool-fillet", .flag), ("path-close-polygons", .flag), ("path-tool-offset", .flag),
    ("path-preserve-g1", .flag), ("path-smooth-fillet", .flag), ("path-smooth-radius", .float),
    ("path-sort-method", .choice ["", "flip", "optimize"]), ("z-step", .float), ("z-depth", .float), ("tool-width", .float),
    ("a-feed-match", .flag), ("tool-trail-offset", .float), ("a-offset", .float), ("spindle-mode", .choice ["", "start", "path"]),
    ("spindle-speed", .int), ("spindle-wait-on", .float), ("spindle-clockwise", .flag), ("gcode-units", .choice ["doc", "in", "mm"]),
    ("xy-feed", .float), ("z-feed", .float), ("a-feed", .float), ("z-safe", .float), ("blend-mode", .choice ["", "blend", "exact"]),
    ("blend-tolerance", .float), ("tolerance", .float), ("biarc-tolerance", .float), ("biarc-max-depth", .int), ("line-flatness", .float),
    ("min-arc-radius", .float), ("output-path", .free), ("append-suffix", .flag), ("separate-layers", .flag), ("write-settings", .flag),
    ("preview-toolmarks", .flag), ("preview-toolmarks-outline", .flag), ("preview-scale", .choice ["small", "medium", "large"]),
    ("create-debug-layer", .flag), ("log-create", .flag), ("log-level", .choice ["DEBUG", "INFO", "WARNING", "ERROR", "CRITICAL"]),
    ("log-filename", .free), ("brush-reload-enable", .flag), ("brush-reload-max-paths", .int), ("brush-reload-rotate", .flag),
    ("brush-reload-angle", .float), ("brush-pause-mode", .choice ["", "restart", "time"]), ("brush-reload-dwell", .float),
    ("brush-overshoot-mode", .choice ["", "auto", "manual"]), ("brush-overshoot-distance", .float), ("brush-soft-landing", .flag),
    ("brush-landing-strip", .float), ("x-subpath-render", .flag), ("x-subpath-offset", .float), ("x-subpath-smoothness", .float),
    ("x-subpath-layer", .free)]⟩

/-- The dialog `inkinx/voronoi.inx` (`inkinx/voronoi.inx:1-51`). -/
def voronoiDialog : Dialog :=
  ⟨"voronoi.inx", "voronoi.py",
   [("active-tab", .choice ["voronoi", "debug", "about"]), ("jiggle-points", .flag), ("delaunay-triangles", .flag), ("delaunay-edges", .flag),
    ("clip-to-polygon", .flag), ("create-debug-layer", .flag), ("log-create", .flag),
    ("log-level", .choice ["DEBUG", "INFO", "WARNING", "ERROR", "CRITICAL"]), ("log-filename", .free)]⟩

/-- All dialogs (`inkinx/*.inx`). -/
def allDialogs : List Dialog :=
  [colorcountDialog, inkextTemplateDialog, linesDialog, nestrectDialog, pathshufflerDialog, pipelinesDialog, polypathDialog, polysmoothDialog,
   quasinkDialog, repeaterDialog, sinewaveDialog, tcncDialog, voronoiDialog]

section
variable {K : Type} [PyTrig K]

/-- The dialogs whose program exists, each with the options its program knows (`inkscape/inkext.py:262-282`). -/
def dialogOptions : List (Dialog × List (OptSpec K)) :=
  [(colorcountDialog, colorcountOptions ++ commonOptions), (linesDialog, linesOptions ++ commonOptions),
   (pathshufflerDialog, pathshufflerOptions ++ commonOptions), (pipelinesDialog, pipelinesOptions ++ commonOptions),
   (polypathDialog, polypathOptions ++ commonOptions), (polysmoothDialog, polysmoothOptions ++ commonOptions),
   (quasinkDialog, quasinkOptions ++ commonOptions), (repeaterDialog, repeaterOptions ++ commonOptions),
   (sinewaveDialog, sinewaveOptions ++ commonOptions), (tcncDialog, tcncOptions ++ commonOptions),
   (voronoiDialog, voronoiOptions ++ commonOptions)]

end

/-- The text of the first comment in the dialog of tcnc (`inkinx/tcnc.inx:21-28`). -/
def tcncComment : String :=
  "\n      <param name=\"origin-ref\" type=\"optiongroup\" appearance=\"minimal\" _gui-text=\"Origin reference\">\n        <_option value=\"doc\">Bottom left corner of document</_option>\n        <_option value=\"box\">Bounding box of selected paths</_option>\n      </param>\n      <param name=\"skip-path-count\" type=\"int\" min=\"0\" max=\"1000000\" _gui-text=\"Number of paths to skip\">0</param>\n      <param name=\"\" type=\"description\">-----------------------------------------------------</param>\n"

end Verif.Cam
