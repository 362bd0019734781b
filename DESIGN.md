# Formal model of utlco/tcnc in Lean 4 — design

Source: `/repo` (Python 2.7), read as text only; nothing of it is run.
Model and proofs: `/verif/lean/Verif/**`, Lean 4.33 + single Mathlib modules.
Properties: `properties.jsonl`; status and theorem names: `MANIFEST.json`; wrong programs: `seeded/`.

## 1. Modelling conventions

* **Language.** Python 2.7 semantics (`from __future__ import division`; `None` compares less than any number; list
  `sort` is stable; dictionaries and sets iterate in an arbitrary order, modelled as an arbitrary function or list).
  Exceptions are values (`PyErr`); a method that can raise after side effects returns the state *and* the exception.
  A `while` loop or recursion whose termination is not evident is modelled as an inductive relation (`DepthLoop`) or with
  fuel; termination (or its failure) is then a theorem, and no fuel appears in the statement of a property.
* **Numbers.**  `PyFloat K` (`Verif/Arith.lean`) is a law-free interface of the float operations the code uses.  Theorems
  about control flow and bookkeeping are proved for *every* `PyFloat K`, hence also for IEEE doubles (a `Float`
  instance is given).  Theorems that need algebra assume `ExactFloat K` (ordered field) — instances ℚ and ℝ.
  Geometry with trigonometry is over ℝ (`PyTrig ℝ`, with the real `sin`, `cos`, `atan2 = Complex.arg`).
  Rounding error of IEEE arithmetic is NOT modelled there, and `float_eq`-style tolerances are: every tolerance of the
  code (`EPSILON`, `tolerance`) is a variable of the model, so theorems hold for every tolerance they state.
* **Text.** `List Char`, ASCII.  G-code output is a list of structured lines with an exact `render` to text.
  `float(text)` is a function `NumEnv.ofDec` of sign, digits and exponent; regular expressions are modelled by hand.
* **Specifications** are independent of the model: a reference G-code machine and a decimal reader (`GCode/Spec.lean`),
  point sets and Bernstein polynomials (`Geom/Props*`), rotation about a point, the SVG grammar and its meaning (`Svg/Props*`),
  walks in a finite graph (`Graph/Props*`).  They are defined beside the theorem that uses them.
* Property theorems are named `Cnn_…` and live in `Props*.lean` files; each is followed by a non-vacuity `example`.
* A property that is false of the code is proved false (`Cnn_refuted…`, general where possible, else a concrete witness),
  with the part that holds kept as `…_partial`; the note in `MANIFEST.json` says what is missing.

## 2. Per-property plan

M = what is modelled, P = how it is proved.

### cam/gcode.py — `GCode/Model.lean`: every public method of `GCodeGenerator`, as a state machine over `Gen K`
| id | M / P |
|---|---|
| C01 | all calls as one step function `Call → Gen → Gen × error`; P: simulation invariant between the generator and a reference machine executing the emitted blocks, induction on histories; refuted for changes of scale/offset |
| C02 | same; P: each axis of the machine within the tolerance of the last request, induction on histories |
| C03 | `rapid_move`, `tool_up`, `tool_down`; P: invariant on Z of the reference machine over the emitted blocks; refuted for alternate tool commands |
| C04 | `tool_up`; P: unfolding plus C01's simulation |
| C05 | modal suppression; P: fixed point of `gcode_command`; refuted for forced words |
| C06 | feed words; P: invariant "F of the machine = recorded F unless silently changed"; refuted: silent change |
| C07 | word order; P: sublist of the canonical order, induction on histories of lines |
| C08 | line numbers; P: arithmetic progression, induction on histories |
| C09 | opaque `gcode_command`; P: case analysis over all spellings |
| C10 | comments; P: lockstep of two histories that differ in comments, at code level and at text level through a reader; refuted for `)` and newline |
| C11 | `dwell`; P: exact line and its value |
| C12 | automatic spindle; P: order of lines per call, invariant over histories |
| C13 | `feed_arc`; P: exact emitted line; refuted: radius check never fails |
| C14 | `feed_rate`; P: exact; refuted after the first call |
| C15 | `normalize_axis_angle`; P: congruence mod 2π over ℝ; refuted: range, readability |
| C16 | number formatting; P: decimal rounding error bound via an independent reader of decimal text |
| C17 | `set_units`, header; P: invariant over histories |
| C18 | `map_axis`; P: lockstep of mapped/unmapped histories; refuted for `normalize_axis_angle` |
| C19 | `wrap_angles`; P: `fmod` range and congruence |
| C20 | `header`, `footer`; P: exact lines |
| C21 | `feed_arc` with unknown position; P: case analysis |

### cam/simplecam.py, cam/util.py, cam/toolpath.py, cam/offset.py, cam/fillet.py, cam/paintcam.py, cam/output.py — `Cam/*`
| id | M / P |
|---|---|
| C22–C25 | depth loop of `generate_gcode` as a big-step relation over the real G-code generator model; P: well-founded measure / invariant on the depth; refuted parts: non-negative step, remainder |
| C26 | passes; P: the log of plunges and cuts of a completed run is the list of paths, per pass |
| C27 | `sort_paths` directional; P: permutation + sortedness + stability of insertion sort |
| C28 | `_flip_paths`; P: induction with the previous end as state; refuted for Beziers and for the first path |
| C29 | `_sort_segment_paths_1`; P: loop invariant on the remaining paths; refuted: always loses |
| C30 | `split_path_g1`; P: induction over the path; refuted at the branch cut |
| C31 | `path_biarc_approximation`; P: induction over the path, any Bezier approximation |
| C34 | `generate_segment_gcode`; P: invariant "A ≡ tangent mod 2π, by shortest turns" |
| C35 | travel distances; P: sums over segments |
| C36, C37 | paint brush; P: exact decomposition of the result; refuted: unbound local, missing attribute |
| C38 | `offset_path` (with the tool angle at the start of an offset path); P: list induction, connectivity; refuted for degenerate paths |
| C39 | `fillet_path`, `create_fillet` (with the tool angles of adjusted fillets); P: list induction, connectivity and replaced corners |
| C40 | `offset_arc`; P: real algebra |
| C79 | `create_pathname` over an arbitrary directory listing; P: string arithmetic; refuted for unsorted listings |
| C81 | whole code generation; P: error-freeness invariant |
| C82 | option defaults; P: exact |
| C98–C100 | `gcodesvg.py` preview plotter driven by the generator model; P: invariant over call histories, real trigonometry; refuted: unknown start position, arcs of more than half a turn |
| C138 | `GCodePlotter` outline of tool marks (`Cam/Outline.lean`): `_fix_reversals`, offset sides and ends; P: list induction; connectivity of the ends; refuted: crash when all marks coincide, gaps after a turn back, loops left in |
| C139 | sub-path rendering; P: exact points of the parallel copies; refuted: offset 0 never ends |
| C101–C110 | `Tcnc._init_gcode`, `Tcnc._init_cam`, docunits options, composed with the generator and CAM models into whole programs; P: every call of a run is one of a few kinds, invariants over their histories; refuted: heights scaled, nonnegative depths, tool wait in ms, quarter edge speed, rounding, unconverted defaults, spindle start |
| C111–C113 | `get_shape_elements`, `use` references, layer and selection handling over XML trees (`Svg/Tree.lean`); P: nested induction over trees, an inductive specification of what is drawn, König-style bound for references that end; refuted: comments raise, reference cycles overflow, selected previews, sub-path layers and user layers named `tcnc …`, nested selections |
| C114 | the whole of `Tcnc.run`: tree → shapes → paths → program; P: composition of C113, C78, C26, C02 |
| C123 | `find_layer`, `create_layer`, `clear_layer` on trees (`Svg/Layer.lean`); P: paths of a tree as the specification, induction over trees, a pigeonhole bound for the numbers tried; refuted: a layer made in the same run is not found |
| C124 | what is cut before and after tcnc has drawn in its own layers; P: nested induction relating two trees; refuted: references into the preview |
| C125 | `get_visible_layers`, `get_layer_elements`, `margin_cliprect`; P: list induction from C76, real order; refuted: margins that do not fit |
| C129 | `create_line`, `create_circular_arc`, `create_curve`, `create_polygon`, `create_polypath`: the text of the path data (`Svg/Output.lean`); P: decimal arithmetic and the round trip of C72, induction over the path |
| C130 | the arcs and ellipses of the same; P: the SVG arc rules of C99/C88; refuted: the large-arc flag is always 0, whole circles are empty |
| C131 | `create_svg_document`, `create_inkscape_document` (`Svg/NewDoc.lean`) composed with the model of opening a document; P: decimal arithmetic, C75; refuted: `viewbox` is misspelled, so that units other than pixels are not user units |
| C132 | `random_id`; refuted: the name `id` is the built-in function |
| C119 | `fix_G1_path`, `smoothing_arcs`; P: C95 for each replaced segment, induction over the path; refuted: the junction from an arc to the line after it |

### lines.py and the other extensions — `Ext/*`
| id | M / P |
|---|---|
| C126 | `LineSet` with random numbers as arbitrary functions and the loop with a bound; P: C49 for each line, a least step for termination; refuted: angle straight down, no cycles, no spacing |
| C127 | the same without variation; P: the loop with constant step, C49; refuted: rotated lines (the rise is the sine, not the tangent), inverted spacing without formula |
| C133 | `transform_attr`, `is_identity_transform`; P: decimal arithmetic, C77 |
| C134 | `Repeater.run` with the live iteration over the root (`Ext/Copies.lean`); P: list induction, C133; refuted: scaled elements, no selection (never ends) |
| C135 | `BreakShuffle.run`, `random.shuffle` as an arbitrary permutation; P: C125, C84, C133, list induction; refuted: layers with transforms |
| C136 | `simplify_polylines`, `_simplify_polyline` (`Ext/Polysmooth.lean`); P: C54 for all points of a polyline, list induction; refuted: curves after lines |
| C137 | the placing of the smoothed paths in `PolySmooth.run`; P: list induction; refuted: elements with several paths |
| C147 | `Ext/Quasi`: all of `geom/quasi.py`; P: list induction over the loops, trigonometry over the reals; refuted: even symmetries divide by zero |
| C148 | same model; P: the grid functions are Lipschitz, floor is locally constant; sharing of sides by the numbers of steps of the cell between |
| C149 | same model, `_plot`; P: case analysis per kind; refuted: `SEG_VERT_ACUTE` joins obtuse corners |
| C150 | `Ext/Quasink`: `_SegmentChain`, `_create_chains`, `_draw_segment_chains` of `quasink.py`; P: induction on the number of segments left; refuted: a side shared with a longer chain keeps a closed polygon from being drawn as one |
| C151 | same file, the projectors; P: trigonometry over the reals; refuted: the centre of the circle divides by zero |
| C152 | same file, `_QuasiPlotter`; P: induction over the calls, then combined with C147 and C149; refuted: boxes with the colour of a tile raise KeyError, and the bounding box starts at the smallest positive number |
| C153 | same file, `run` up to the plotter and `recenter`; P: matrix and box algebra over the reals; refuted: the rotation is about the page corner, margins that leave nothing, `recenter` with rectangles and boxes |
| C154 | same file, the `_draw_…` loops as lists with colours and layers; P: list induction, the index in the sorted keys is a rank; refuted: empty tables, sorted tiles, boxes in layers without kinds, layers of edges |
| C155 | same file, `_inset_polygon`, `_draw_inset_polygons`; P: C55, C58, the sum of the distances from opposite sides; refuted: tiles with a small area get no corners |
| C156 | same file, the sorts of `run`; P: two stable sorts make a lexicographic one, bearings are unique; refuted: sides without length |
| C157 | `Ext/VoronoiExt.lean`: the extension `voronoi.py` from the list of edges of the sweep to the segments drawn; P: an edge without end has the same points on the page as the segment to the border, then C49 and C121; refuted: upright edges, edges that end off the page, edges without ends |
| C158 | same file, `_line_inside_hull`; P: by C120 nothing changes along a line that crosses no side; refuted: a Delaunay edge across a notch |
| C160 | `Svg/Templates.lean`: `string.Template.substitute` as a scanner, `styles_from_templates`, `scale_inline_style`; `Ext/Styles.lean`: the tables of all extensions and of the preview, generated from the source; specification: a template as a list of pieces (`render`), filled piece by piece; P: scanner follows the pieces, unit conversion by C75; the tables are checked against pieces; refuted: the stroke settings of `polypath.py` change no style |
| C161 | same file: `lines.py:222-246` and the constructor of the preview plotter with the class attributes it changes; P: C160 and case analysis; refuted: opacity 0 of the vertical lines stays 0; a second preview plotter has the styles of the first |
| C162 | `Ext/Pipes.lean`: the extension `pipelines.py` from the selected paths to the polylines drawn; specification: bisectors, guides and hits as geometric relations (`GuideAt`), lines that divide all guides evenly (`evenLines`); P: induction over paths and guides, C55, C58, stable sorting; refuted: paths that touch, closed paths, bisectors that are too short |
| C163 | `Ext/PolyExt.lean`: the extension `polypath.py` from the segments of the drawing to the layers drawn (without fillets; offsets and the convex hull as arbitrary functions); specification: which points the drawing joins (`JoinedIn`), loose ends; P: C65, C67, C140–C142, C159 on the graph of the drawing; recursion over the offsets by a rank; refuted: recursion without end, curves, drawings without segments |
| C164 | `Ext/Colors.lean`: the extension `colorcount.py` from the style texts and the geometry of the elements to the layers, the key and the tags, exceptions included (elements in groups as in C76/C77; no nested layers); specification: `HasFill`, counts by `countP`, rows one below the other, layers named after the colour; P: an invariant of the loop, induction over the rows |
| C165 | `Geom/Inscribed.lean`: `ellipse_in_parallelogram` with all exceptions, `Ext/QMarks.lean`: the ellipses and circles of tiles; specification: `InscribedIn` (touches each side between its ends, every point inside), areas as cross products, the largest over all ellipses inside | closed forms of the semi-axes as roots of a quadratic over ℝ, tangency by discriminants, the area bound by the support function along both sides; refuted for parallelograms that are not rhombi and for the eccentricity asked for |
| C166 | `Geom/Inscribed.lean`: `eccentricity`, `curvature`; specification: distances to the foci, `TurnsBy` (derivative of the unit tangent over the speed) | derivatives in Mathlib; refuted off the origin |
| C167 | `Ext/QMarks.lean`: margins and frame as outlines; specification: edges of boxes as point sets, distances to a stroked outline | points on sides of rectangles; refuted without clipping |
| C168 | `Ext/VoronoiRun.lean`: `voronoi.py` from the paths of the shapes to the layers, with the sweep of C144 and the graph of C65/C66, exceptions included; iteration orders and random numbers are arbitrary; specification: `IsEndIn`, `VoroLayer.Joins`, names of layers | inversion of the run, C66 for the closed cells, C157/C158 for what is drawn; refuted for chains, styles, few points and jiggled polygon sides |
| C169 | `Geom/Grid.lean`: `set_epsilon` (constants and exception; `math.log(_, 10)` is `Real.logb 10` in the theorems), `float_round`; specification: `NearestPower` | logarithms and powers of ten in Mathlib, floor and ceiling; refuted above 1, for refused values and for rounding against the tolerance |
| C170 | `Geom/Grid.lean`: `offset_polygons`, `poly2clipper`, `clipper2poly`, and `OffsetPolygons`, `_StripDupPts`, `Area` of `contrib/clipper.py` as called from there; `_OffsetInternal` is an arbitrary function; specification: `IsWhole`, `gridPt`, `openRing`, `OnRing`, `Within` | truncation, induction over the in-place loop, shoelace sums; refuted for clockwise polygons and neighbours on one grid point |
| C171 | `Geom/Align.lean`: `find_extrema_align`, `find_extrema_points`, `Box.vertices`; specification: distances along and across the chord `alongD`/`acrossD`, `ExtremeAt` by derivatives | rotation into the frame of the chord, C117; refuted for control points equally far from the chord |
| C172 | `Geom/Align.lean`: `slope`, `slope_intercept`, `general_equation` | algebra; refuted: `general_equation` never returns, vertical lines raise |
| C173 | `Geom/Align.lean`: `start_angle`, `segment_area`; specification: swept area as an integral | integral of trigonometric functions, polar coordinates; the start angle is refuted for centres other than the origin |
| C174 | `Cam/Options.lean`: the option types and checkers of `inkext.py`, `_process_options`, `_post_process_options`, the rules of `optparse` for defaults and errors, the table of options of `tcnc.py`; `float(text)` and the integers of `optparse` are arbitrary functions; specification: `Means`, `lastGiven`, `Understood` | induction over the options given, dictionaries as lists; refuted: angles that are not given, lengths that are no numbers |
| C175 | `Svg/Elements.lean`: `create_simple_marker` on document trees, the three markers of the preview; specification: `copies`, `OnlyInDefs`, `IsMarker`, `Refers` | lists of children as folds of "take out the first, add at the end"; refuted: the id twice in the definitions, the id elsewhere, no `replace` |
| C176 | `create_rect`, `create_circle`, `create_text` with an arbitrary way of writing numbers as numerals | composition with C78; induction over the lines; refuted: the defaults of `style` and `line_height` |
| C177 | the formats of the three `to_svg_path` | composition with the path parser as in C129; refuted: arcs of more than half a turn |
| C178 | `Ext/Rays.lean`: corners and rays of `polypath.py` with all exceptions; specification: neighbours by index all around, turns against the signed area, bisector by dot products, edge of a rectangle | corners by index, membership by induction, the foot of the bisector in proportion of the sides and Cauchy–Schwarz; refuted: polygons that repeat the first vertex, two inner corners in a row, other rectangles |
| C179 | `Cam/Toolpath.lean`: the tool path list with biarc approximation, continuity and closedness; specification: parts by segment, end points within the tolerance | induction over the path, C50 for curves; refuted: circles of two half circles are not closed, the exception is an AttributeError |
| C180 | `Cam/Toolpath.lean`: position queries and `flip_tool`; specification: the machine of C01 | from C01; refuted: `flip_tool` raises AttributeError and changes nothing |
| C181 | `Cam/Dialogs.lean` (generated from `inkinx/*.inx` and the tables of options by `tools/dialogs.py`): fields, options and programs of all dialogs; specification: what a field can give, what a text means (C174), comments of XML | kinds of fields fit types of options by computation over the tables, then C174 for every way to fill in the fields; refuted: two dialogs run programs that do not exist, one is no well-formed XML |
| C182 | `Ext/Sine.lean`: `run` of `sinewave.py` over the models of layers, styles, paths and curves; specification: ends of quarters of a wave, layers of C123 | induction over the cycles, reading back by C129, layer by C123; refuted: an empty layer that is not turned upside down |
| C183 | `Cam/Subpath.lean`: `_simplify_path`, `_draw_subpaths`, `_draw_toolmark_outline`; specification: connected paths, distance to lines | C54 on the vertices, C138 for the ends; refuted: a single tool mark, negative tolerances |
| C184 | `Cam/Header.lean`: the list of settings of `_init_gcode`, comments of the header; `str` is an arbitrary function; specification: `Changed`, `Listed`, the lines of the header, `Faithful` | output only grows (stable invariants of all calls), induction over the table, C174 for giving settings again; refuted: angles and lengths, the default of `--blend-tolerance` |
| C185 | `Cam/Start.lean`: `main` up to `run` with and without a file; specification: `HasValue`, sizes and units given | composition of C174 and C131; refuted: lengths without a file |
| C186 | `Cam/Document.lean`: `get_parent_layer`, `get_selected_layer`, the default parent, `set_layer_name`, `layer_is_locked`, `get_document_name`; elements are told apart by their address; specification: `LayerAt`, prefixes of addresses, `FirstWithId`, `SaysTrue` | document order never puts an element after one it contains (mutual induction over trees); refuted: sub-layers, layers made by the extension, names of documents, selected elements that are no layers |
| C187 | `openDoc`, `runPaths`, `Ran` (C114 and others); specification: `SameRead`, trees that agree in the attributes `readNames` | relational induction over trees and over the depth of the traversal; refuted: locks, clips and masks change nothing |
| C188 | the generator and `generate_gcode` (as C01, C114); specification: the legs of a program, `Journey`, `WellMade` | induction over segments, paths, passes and blocks, with the state of the generator threaded through; refuted: an arc that starts within the tolerance of the tool can be cut along its chord; exact when the coordinates of consecutive stops are equal or more than the tolerance apart |
| C189 | `prepare` = the sorting and preprocessing of `generate_gcode` (as C82); specification: `Plain` (all options off), `InOrder`, `Rounded`, `Traced`, `Stroke` | `prepare` reduces to one stage when the others are off, then C27, C28, C30, C36, C38, C39 for each path; the radius of fillets between lines from the test in `fillet_line_line` |
| C190 | the whole run of C114 (`openDoc`, `runPaths`, `Ran`) for shapes of lines and arcs; specification: `upward` (a point of the drawing on the page), `segUpward`, `Draws`, `Cuttable` | C78 for the elements, C61 under isometries for the transforms, C104 for termination, C188 for the blocks; refuted for quarter turns written as matrices: circles are cut about wrong centres |
| C191 | the run of C190 with Bezier curves; specification: `CurvesCut` (each curve replaced by `GoodPiece`s of C95) | `prepare` reduces to the biarc approximation of each segment when the options are off (`prepare_curves`), then C95 for each curve and C188 for the blocks; a failed run is traced back to a curve whose approximation raises; refuted: an arch with its first handle in the corner of the page ends the run (`Cam/Props45.lean`) |
| C192 | `create_fillet_arc`, `fillet_line_arc`, `fillet_arc_arc`, `fillet_path`; specification over ℝ: `TouchesBoth`, `reach` (distance of the centres of touching circles), `LineArcFit`, `OnDiameter` | coordinates along and beside the line; the centre is computed explicitly (`lineArcParts_eq`); for two arcs the tests of `point_on_arc` bound the distances; refuted for an arc that ends where the line starts, and for arcs of more than half a turn; smooth at both ends (`C192_*_smooth`); the connected arcs are parts of the given ones (`arcPt`), refuted when more than half a turn is cut away |
| C193 | `Geom/Outset.lean`: the outlines made by `_OffsetInternal` of `contrib/clipper.py` (`_GetUnitNormal`, `GetSin`, `_DoSquare`, `_DoMiter`, `_OffsetPoint`, the loops for polygons); `Execute` is an arbitrary function; specification: `RightOf`, `CutBack`, `Mitered`, `SquaredOff`, `NearVertex`, `triples` | half-angle identities for the squared corners, induction over the corners, convex combinations for the distance, then C170; refuted for round corners (`range` of a float) and for the limit, which is scaled |
| C194 | `Ext/Render.lean`: `render_lines` and the end of `run` of `lines.py` over the model of `fillet_path`; elements are layer, style and shapes (their text is C129); specification: `TracesPath`, `paintOrder`, `SmoothAt` | induction over the lines of a path and over the paths, C128 for the paths, C122 for the fillets |
| C195 | `Geom/Vw.lean`: `simplify_polyline_vw` (unfinished in the code); specification: the text of the theorems | induction over the heap; refuted for three or more points |
| C196 | `Geom/Curve.lean` (`Bez.tangent`, the tangent angles) and `Geom/Frame.lean` (`normal`); specification: `unitTangent` (the derivative of the curve, in the sense of analysis, over its length) and limits | the cases of the code over the reals, continuity of directions; refuted for both handles on the start point and for places slower than the tolerance |
| C197 | `Ext/QLayers.lean`: the end of `run` and `_draw_info_layer` of `quasink.py`; specification: `Asked`, `drawingOrder`, `layerName`, `layerCount`, `infoSpec` | cases over the options; names differ by their beginnings |
| C128 | `insert_reversed_lines`, `insert_connectors`, `connected_paths`, the order in `run`; P: list induction |

### geom/* — `Geom/*`
| id | M / P |
|---|---|
| C32, C33 | `calc_rotation`, `normalize_angle`; P: real `fmod` |
| C41–C43 | matrices; P: ring identities, rotation isometry |
| C44–C46 | equality and hash; P: order arithmetic; refuted: transitivity, hash |
| C47–C50 | boxes, clipping (Liang–Barsky); P: point set membership; refuted: `polygon.bounding_box` |
| C51–C54 | polygons; P: invariance by list induction over cyclic pairs; RDP by well-founded recursion |
| C55–C58 | lines; P: field algebra, nearest point by Cauchy–Schwarz |
| C59–C62, C80, C93, C94 | arcs; P: real trigonometry with `atan2 = Complex.arg` |
| C63, C64 | Bezier subdivision, degree raising; P: Bernstein identities |
| C88, C89, C91 | ellipses and circle intersection; P: real algebra, refutations general |
| C90, C92 | Bezier approximations; P: loop invariant, error bounds |
| C115 | `CubicBezier.length`; P: bounds chord ≤ arc ≤ polygon by integrals, halves by substitution, termination by the halving of `slack`; refuted: cached value ignores the tolerance |
| C116, C117 | derivatives, curvature, extrema as calculus statements on the Bernstein curve; refuted: division by zero for curves not properly cubic |
| C118 | `smoothing_curve`, `smooth_path` over ℝ; P: each curve arrives in the direction the next one leaves, induction over the path; refuted: curves in the path, closed paths with a zero-length start |
| C122 | `fillet_polygon`, `fillet_path`, `insert_fillet` over ℝ; P: the offset lines meet in the centre, unit directions; induction over the corners with the room left on the current side |
| C120 | `point_inside`; P: each side changes the parity by its crossing with the way and the passing of its ends, which cancel around the polygon |
| C121 | `intersect_line`; P: C120 along the line, the sorted crossings in pairs; refuted: both ends inside (the last part is lost), a line through a corner |
| C96, C97 | Andrew's and Chan's convex hull; P: stack invariant of the scan; refuted: near-duplicate points, Chan raises |
| C95 | biarcs; P: induction on the recursion depth, derivative of the Bezier curve; refuted: closed curves, a handle at the origin |

### geom/planargraph.py — `Graph/*`
| id | M / P |
|---|---|
| C65, C66 | `Graph` as adjacency function + edge list; P: invariants over histories; culling = largest subset of minimum degree two, independent of order |
| C67 | `GraphPathBuilder.build_paths` with arbitrary choices; P: edge multiset invariant; refuted: empty graph |
| C140 | `make_face_polygons` (`Graph/Faces.lean`); P: the leftmost-turn map on directed edges is injective; invariant of the marks that is closed under it up to the start node, counting; refuted: dead ends, dependence on the node order |
| C141 | `_build_boundary_polygon`; P: induction over the walk; lowest node as an invariant of histories; refuted: touching parts, cut short, chains raise, removed bottom node, empty graphs raise |
| C142 | `build_longest_paths`, `_dedupe_paths`; P: trails from C67, sublist; refuted: no edges, duplicates |
| C143 | `add_poly`; P: induction over the vertices from C65; refuted: no vertices |
| C159 | `Graph/Peel.lean`: `_copy_nodemap`, `_remove_node`, `_prune_nodes`, `peel_boundary_polygon` on the graphs of C140, with any inside test; specification: the largest part without dead ends (`IsCore`), the rim and the layers; P: the node map is always the graph restricted to some nodes, removal keeps every part without dead ends, each round removes the start node; refuted: separate parts, triangles |
| C144 | `geom/voronoi.py`: the whole sweep (`Voronoi/Model.lean`); P: invariants of queue, beach line and edges over the main loop, for any arithmetic, measure 3·sites + beach length; refuted: points in a column, fewer than 5 points |
| C145 | the same; P: each edge is a bisector, each event is the meeting of two half edges with a site between them (exact fields with any `hypot`); partial: empty circles not proved; refuted: doubled lines, coincident points, `p3`, `jiggle` at 0 |
| C146 | `_SiteList`, `_PriorityQueue`, main loop; P: sorted insertion, buckets monotone in the height, invariant of the queue over all reachable states |

### svg/* — `Svg/*`
| id | M / P |
|---|---|
| C68–C72, C83, C84 | tokenizer and parser of path data; P: induction on text / on command lists against the SVG 1.1 meaning; refuted parts: exponents, `S`/`T` |
| C73, C74 | colours and inline style; P: text induction; refuted parts |
| C75–C77, C85, C86 | `SVGContext`: units, visibility, transforms, view scale, class-level state; P: text and matrix algebra; refuted parts |
| C78, C87 | `geomsvg`: shapes and paths to geometry; P: per element, induction over commands; refuted parts |


## 3. Trusted base

* Lean's kernel.  Axioms: every theorem depends at most on `propext`, `Classical.choice` and `Quot.sound`
  (`vcheck` replays every module and reports no other axiom and no compiler trust).  No axiom is added, no unfinished proof is left.
* That the model is the code: by reading.  Each definition cites the file and lines it models and its simplifications.
* The following are **parameters** of the model, so theorems hold for all of them: arithmetic (`PyFloat`, see above), tolerances,
  the text of printed numbers where it does not matter (`TextEnv`), number reading (`NumEnv`), overflow of percentages (`CssEnv`),
  directory listings, iteration order of sets and dictionaries, outcomes of `random`, the Bezier approximation used by
  `SimpleCAM` where it does not matter (`Env`).
* Assumed and not proved: IEEE doubles behave like `PyFloat` operations; where `ExactFloat` or ℝ is used, that rounding is
  irrelevant; Python's `sort`, `fnmatch`, `re` behave as modelled; ASCII text; no threads, no I/O errors.

## 4. What is modelled

`cam/gcode.py`, `cam/simplecam.py`, `cam/util.py`, `cam/toolpath.py`, `cam/offset.py`, `cam/fillet.py`, `cam/paintcam.py`,
`cam/output.py`, `tcnc.py` (`_init_gcode`, `_init_cam`, the composition of a run), `inkscape/inkext.py` (options, `main` up to `run`), `cam/gcodesvg.py` (plotter calls, tool-mark outline, sub-path rendering); `geom/util.py`, `const.py`, `transform2d.py`, `point.py`, `line.py`, `arc.py`, `bezier.py`, `box.py`, `polygon.py`,
`ellipse.py`, `fillet.py`, `planargraph.py` (`Graph`, `GraphPathBuilder`), `voronoi.py`, `quasi.py`, `voronoiclip.py`; the extensions `voronoi.py`, `pipelines.py`, `polypath.py` and `colorcount.py`; `quasink.py` (projection, plotter, what is drawn, layers and information); `svg/svg.py` (parsers, `SVGContext` queries, the elements that are created),
`svg/css.py` (colours, styles), `svg/geomsvg.py`; `get_shape_elements`, layer names and the selection (`inkscape/inksvg.py`, `inkext.py`) over XML trees.  Debug drawing (`svg_plot`, `debug.py`, `plotpath.py`), logging and docs are not.

Not modelled: the Inkscape GUI layer (the rest of `inkscape/*`, the option parsing of the extension scripts), the rest of `contrib/clipper.py`
(third-party polygon clipping), XML parsing, file I/O.

## 5. Findings

Each is a machine-checked `…_refuted…` theorem; see the notes in `MANIFEST.json`.  In short: stale positions after scale changes (C01);
traverses below the safe height with alternate tool commands (C03); feed-rate changes that are recorded but never sent (C06);
comments that become code (C10); a radius check that cannot fail (C13); `feed_rate` works once (C14); `normalize_axis_angle` (C15);
the depth loop never ends with default settings (C22) and misses the final depth (C24); `optimize` loses paths (C29); brush reload
raises (C37); equality/hash mismatch (C45); polygon box and area sign (C50, C51); `same_side` (C56); clockwise arcs cannot be
subdivided (C60); arc scaling squares the factor (C61); arc centres for sweeps beyond half a turn (C80); SVG arcs with the large-arc
flag (C88); negative sweeps (C90); tangent circles (C91); closed Bezier loops vanish in the biarc approximation (C95);
SVG `S`/`T` (C70), `viewBox` origin (C86), unit tables shared between documents (C85); polygons and lines with transforms raise (C78);
G-code files can be overwritten (C79); `convex_hull` needs points further apart than the tolerance (C96) and `convex_hull_chan`
always raises (C97); the length of a curve is cached whatever tolerance is asked later (C115), `find_extrema` raises for quadratic,
horizontal and vertical curves (C117); heights are scaled as if they were user units (C103); the dialog's default depth never finishes (C104); the tool wait
is in seconds and used as milliseconds (C105); the matched angular feed rate is a quarter of what is asked for (C106); the output
precision can be coarser than the tolerance (C107); defaults in document units are not converted (C108); "spindle on at the start" never
starts it (C109); a first move without X and Y raises in the preview (C98), which shows long arcs wrong (C99);
a comment in the drawing raises AttributeError (C111); a reference cycle raises RuntimeError (C112); selected previews, sub-path
renderings of an earlier run and nested selections are cut, user layers named `tcnc …` and missing selections are not (C113). Drawings without the `namedview` element or without `width` and `height` cannot be opened (C114).
A curve in the path makes `smooth_path` drop everything, and a closed path that starts with a zero-length line loses the next one (C118); the preserve-G1
repair breaks the junction between an arc and the line after it, and passes `match_arcs` as the smoothness (C119). Clipping a line that starts and ends inside a polygon but leaves it in between
loses the last part, and a line through a corner is lost altogether (C121). A layer made in a run has no name space and is not found by `find_layer` in the same run, so that a second
layer of the same name is made (C123); a `use` reference to an element of the preview is cut (C124). Margins that do not fit in the page give a rectangle instead of nothing (C125).
Grids: rotated lines are not drawn at the angle asked for (C127), and with the spacing inverted but no formula they are a tenth of a unit apart whatever
is asked for (C127); -90 degrees, no cycles and no spacing raise or do not end (C126).
Arcs of more than half a turn are written as their complement and whole circles as nothing (C130); a polygon with a single vertex is written as malformed path data (C129);
a new document in inches or millimetres is not a page of that many user units (C131); generated identifiers are not checked against the document (C132).
The repeater moves copies in the coordinates of the element, so that the distance is scaled and turned by its transform, and without a selection it copies its own copies
without end (C134); shuffled paths lose the transform of their layer, and exploded paths stay where they are in addition to their pieces (C135).
Simplifying before smoothing drops a curve that follows two or more lines, and moves a curve that follows one line before the line (C136).
When an element with several paths is replaced by its smoothed paths, all but the first go to the root of the document (C137).
The tool-mark outline raises IndexError when all marks coincide, has a gap after a turn back, keeps loops and loses the way back along the same line (C138); the sub-path rendering with its default distance 0 never ends (C139).
The stroke options of `polypath.py` have no effect, its templates use other names (C160); in `lines.py` the opacity of the vertical lines is never raised from 0, and the plotter of the preview fills the styles of its class, so that a second one ignores its own scale (C161).
`pipelines.py`: two paths that touch raise `ZeroDivisionError`, lines along closed paths are not closed, and the bisectors are only as long as the diagonal of a box that leaves out where the paths end, so that vertices may get no guide (C162); arcs and curves raise `ValueError`; its fillet options have no effect.
`polypath.py` (and `voronoi.py`, which builds its graph the same way) takes a curve for the segment to its first control point; recursive offsets never end unless every offset shrinks to nothing, and so not with the default offset 0 (C163).
`colorcount.py` counts `fill:none` as a colour and two spellings of a colour as two; a circle of two arcs (or any path there and back) stops it with `ZeroDivisionError`, an element outside layers with `AttributeError`; copies are put under the transform of the layer of the first element of the colour; a second run counts the copies of the first (C164).
`ellipse_in_parallelogram` lays the axes along a diagonal, which is right for rhombi only (in an 8 by 6 rectangle the ellipse sticks out), and the eccentricity asked for is not that of the result; its comment 'maximal area, I have no proof' is proved (C165). An inset larger than a semi-axis draws a larger ellipse; `--ellipse-cull` and `--ellipse-min-radius` are ignored. `Ellipse.curvature` ignores the centre and the rotation (C166). Drawing the margins without clipping ends in `AttributeError`; what is drawn is the clipping region (C167).
The Voronoi extension draws Delaunay edges in the style of the triangles (the style `delaunay` is never used); clipping to the polygon raises `TypeError` when the lowest point is the end of a chain; with jiggling (the default) the sides of the clipping polygon are no longer recognised and may be missing (C168).
`set_epsilon` gives a tolerance of 100 a precision of two digits after the point, and a refused value (0 or below) stays set, after which no number equals itself; with a tolerance that is not a power of ten `float_round` can move a number by more than the tolerance (C169).
`offset_polygons` raises `TypeError` for every clockwise polygon (the library assigns to an item of the tuple it is given) and `IndexError` if two neighbouring vertices other than the last two fall on one grid point (`_StripDupPts` shortens the list it iterates over by index); coordinates are cut off, not rounded (C170).

`find_extrema_align` raises `ZeroDivisionError` for every curve whose control points are equally far from its chord, a half circle for instance (C171).

`Line.general_equation` raises its result and so always ends with `TypeError`; `slope_intercept` divides by zero for vertical lines (C172).

`Arc.start_angle` measures from the direction of the point (1, 0), not from the x direction: wrong unless the centre is the origin (C173).

Defaults of options of type `degrees` are used as radians: the brush reload angle of tcnc is 90 radians unless given (and `--hull2-max-angle` of `polypath.py` 180 radians, `--min-arc-radius` has this type by mistake); a length that is no number raises `ValueError` instead of the message of `optparse`; the type `percent` has a checker but cannot be used (C174).

An id that is twice in the definitions, or that of an element of the drawing, is still found instead of the new marker of the preview (C175).

`create_text` without a style, or with lines but no line height, raises `TypeError`, though both arguments have defaults (C176); `Arc.to_svg_path` writes arcs of more than half a turn as the other arc (C177).

With `--write-settings` angles are listed in radians and lengths in user units, so that the listed text given again as an option means something else (C184);
`--blend-tolerance` is listed even when it is not given, because its default is the text `'0'` and its value a number (C184).
Without an input file every option of type length that is given raises AttributeError, because lengths are converted before the new document is made (C185).
A transform that exchanges the axes (a quarter turn written as a matrix, together with the Y flip of the page) leaves the direction of arcs as it was, because `Arc.transform` looks only at the diagonal of the matrix, so that circles are cut as four arcs that bulge inwards (C61, C190).
`simplify_polyline_vw` never simplifies: for three or more points it returns `None`, or fails with a `TypeError` if the tolerance is large (`C195_refuted`, `C195_refuted_tolerance`). Nothing in the repository calls it.
With the trail offset on, a single line that is a dot (or another path without a segment between two different points) among the paths ends the run with `IndexError` before anything is cut (`C189_refuted_offset`).
The tangent of a Bezier curve is the zero vector, and `start_tangent_angle` 0 in whatever direction the curve goes, if both handles are on its start point (`C196_refuted`); so it is at any place slower than the tolerance, such as a cusp (`C196_refuted_slow`).
`fillet_line_arc` takes the segments for an arc and a line whenever the arc ends where the line starts: for a closed figure of a line and an arc the fillet of the wrong corner is returned, and `fillet_path` makes a broken outline of a half disc; `fillet_arc_arc` takes the first point where the line through the centres meets the arc, which for arcs of more than half a turn can be the one on the other side: the fillet then starts there, with a radius of 35 instead of 5; `connect_fillet` makes an arc a whole turn too long if the fillet takes away more than half a turn of it (C192).  `offset_polygons` with round corners (a choice in the dialog of polypath) raises `TypeError` unless all corners are cut back: the library is for Python 3 and calls `range(round(…))`; the limit for mitered corners is multiplied by `10ⁿ`, though it is a multiple of the offset, so that a limit has no effect (C193).  A curve whose first handle is in the corner of the page (the origin of the program) ends the run in an `AttributeError` before the first block: `from_two_points_and_tangent` takes the handle for a vector and finds it zero (`C95_refuted_corner`, `C191_refuted_corner`).
`generate_segment_gcode` cuts an arc along its chord if the tool is not on its circle, up to the tolerance; the tool can be that far off, since moves within the tolerance in X and in Y are left out (C188).  `get_parent_layer` returns the outermost layer instead of the one an element is in, and nothing for elements in layers that an extension has just made, since these have no name space; `get_document_name` has no `return`, and the name is read as an attribute without name space, so that it is always 'untitled.svg'; the selected layer can be any element, even the view (C186).  Locks, clip paths and masks of layers and shapes are ignored by tcnc (C187).  `_convex_vertices` lists the last corner of a polygon that ends with its first vertex twice; `_concave_vertices` keeps the second of two inner corners in a row in the polygon that should be free of them; `_get_polygon_rays` ends rays to the left at the rectangle of the extension instead of the one given (C178).  `toolpath.py` names `segment.__name__`, so that other segments raise AttributeError instead of ToolpathException; `verify_continuity` raises IndexError for an empty path; `is_closed` is false for closed figures of two segments (C179).  `flip_tool` reads `gc.axis_offset`, which does not exist (the attribute is `_axis_offset`), and raises AttributeError (C180).  `nestrect.inx` runs `nestrect.py` and `inkext_template.inx` runs `extension.py`, neither of which exists; `tcnc.inx` has a row of hyphens in a comment and is no well-formed XML (C181).  Options in the dialogs with no effect: in `lines.py` `hline-skip`, `hline-start`, `vline-skip`, `vline-start`, `sine-*`, `gcode-*`; in `pipelines.py` `fillet`; in `quasink.py` `segbox-fill`, `min-rhombus-width`, `polyseg-stroke-width`, `ellipse-cull`, `ellipse-min-radius`, `project-radius-useclip`, `blowup-scale`, `create-culledrhombus-layer`.  The sine wave is upside down if an empty layer named 'sine wave' is there already (C182).  `_draw_subpaths` raises ValueError for a path with a single tool mark (C183).  `from_two_points_and_tangent` compares its first point with the sum of two points, so that `biarc_approximation` raises AttributeError for a curve with a handle at the origin (C95).  `simplify_polyline_vw` is not finished: for three or more points it returns nothing, or raises TypeError from `range` of a float.
Dead ends inside a face make `get_face_polygons` lose it, and the polygons depend on the order of the node map where parts touch (C140); `boundary_polygon` misses parts that touch at the lowest node, stops early when the boundary passes a node twice, raises TypeError when the lowest node ends a chain and IndexError after its edges were removed (C141); `peel_boundary_polygon` peels only the part at the lowest node when the inside falls into separate parts, and never returns a triangle (C159); `build_longest_paths` returns the same path several times (C142).  `VoronoiDiagram` raises ZeroDivisionError for points in a column, also if jiggled on the y axis, and for coincident lowest points, has nothing for fewer than five points, lists lines without ends twice, and never uses its hash table; `DelaunayTriangle.p3` is the second corner (C144, C145).  Even symmetries of `Quasi` have parallel directions, so that the slopes are equal and the division by their difference fails in exact arithmetic, whatever the tolerance (C147); `SEG_VERT_ACUTE` and `SEG_VERT_OBTUSE` always join the same corners, also where these have the other kind of angle (C149).  In `quasink.py` a closed polygon of segments is not drawn as one if another segment ends at one of its corners (C150); the spherical projection divides by zero at its centre, and with its default radius 0 (C151); `plot_segpoly` looks up the colour of a box among the colours of the tiles and raises KeyError when it finds it for the first time, and the bounding box reaches to the smallest positive number when all tiles are left of or above the page (C152).  The rotation turns the finished tiling about the corner of the page; page and margins without a common point clip nothing, margins larger than the page are swapped; `clip_recenter` raises TypeError with a rectangle and leaves the boxes behind with a circle; centering without clipping raises AttributeError (C153).  The colour tables 'gray', 'green' and 'blue' are empty and divide by zero; sorting the tiles does not sort their colours; boxes in layers raise IndexError unless coloured by kind; edges go into the layer of the next colour, and an edge outside the margins raises AttributeError (C154).  Inset tiles of small area get None for corners (C155).  The option `segpath-min-segments` is never used, and the tables 'red' and 'yellow' grow with every run in one process.  The Voronoi extension draws an upright infinite edge upwards or downwards by comparing its X with the middle Y of the page, drops infinite edges that end off the page, and raises TypeError for an edge without ends, so for points in a row (C157); a Delaunay edge that crosses a notch of the clipping polygon is drawn (C158).  The functions of `geom/voronoiclip.py` take a stray `self`, and `clipped_delaunay_segments` there calls a method that does not exist.

Found by reading, not stated as theorems: `lines.py` tests the horizontal opacity where it should test the vertical one; the class-level `_styles` of the plotter are shared between plotters.  Options that are read and never used: `skip_path_count`, `allow_tool_reversal`, `z_wait`,
`min_arc_radius`, `origin_ref`, `ignore_segment_angle`, `a_offset`, `separate_layers`, `brushstroke_max`; the default of
`brush_reload_angle` (90.0) is not converted to radians although given values are; `get_document_name` returns nothing; the output file is
created (and an old one truncated) before settings are found to be wrong.
