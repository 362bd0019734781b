# further properties (C80...), added as the model grew
p("Arc centre is consistent with the sweep",
  "Turning an arc's start point about the computed centre by the sweep angle gives its end point, when the chord fits the sweep (chord = 2 r |sin(angle/2)|).",
  "every pair of points at least EPSILON apart, radius and sweep", "Ranges over all real configurations, including sweeps beyond half a turn.",
  "tcnc/geom/arc.py:Arc.calc_center", "tcnc/geom/arc.py:Arc.__new__")
p("Code generation raises nothing",
  "Once sorting and preprocessing succeed, generate_gcode on a generator with a positive tolerance that has not fed yet, without brush reload, raises no exception.",
  "every path list, every setting of depths, tangent mode, offsets and feeds", "Ranges over all histories of calls inside a run: an unknown position or feed rate at any of them would raise.",
  "tcnc/cam/simplecam.py:SimpleCAM.generate_gcode", "tcnc/cam/simplecam.py:SimpleCAM.generate_segment_gcode", "tcnc/cam/gcode.py:GCodeGenerator.feed_arc")
p("Nothing is processed unless asked for",
  "With no sort method and all optional processing off, the paths that are cut are exactly the given paths of lines and arcs in the given order.",
  "every list of paths of lines and arcs", "Ranges over all path lists.",
  "tcnc/cam/simplecam.py:SimpleCAM.preprocess_paths", "tcnc/cam/simplecam.py:SimpleCAM.sort_paths")
p("Path text is split as the SVG grammar says",
  "Path data is split into the same commands and numbers whatever blanks and commas separate them, and wherever a separator is left out as the SVG grammar allows (1-2, .5.5, L1 2).",
  "every spelling of every list of commands and numbers", "Ranges over all texts: unboundedly many numbers, notations and separators.",
  "tcnc/svg/svg.py:path_tokenizer")
p("Exploding a path keeps every segment",
  "explode_path returns one path per drawing command of the given path, in order; each is read back as a move to where that command starts followed by that command, up to the printed precision; it raises only if parse_path does.",
  "every path text and number format", "Ranges over all path texts.",
  "tcnc/svg/svg.py:explode_path")
p("SVG contexts do not influence each other",
  "The conversion of units by one SVGContext does not depend on which other contexts (for other documents, with other font sizes) were created before or after it.",
  "every history of creating contexts and every unit", "Ranges over all histories.",
  "tcnc/svg/svg.py:SVGContext.__init__", "tcnc/svg/svg.py:SVGContext.unit2uu")
p("The view scale maps the viewport onto the viewBox",
  "For every document whose viewBox has the aspect ratio of its viewport, the context is created and its width attribute, converted to user units, is the width of the viewBox; a document with another aspect ratio is rejected.",
  "every width, height, unit and viewBox", "Ranges over all sizes.",
  "tcnc/svg/svg.py:SVGContext.__init__")
p("Path data becomes connected geometry",
  "parse_path_geom returns one list of segments per subpath that draws something, in order; it has a segment for every drawing command, which starts where the pen is and ends at the end point of the command (so consecutive segments are connected and the first starts at the moveto point) and describes the same curve.",
  "every path text", "Ranges over all path texts: unboundedly many commands in any order.",
  "tcnc/svg/geomsvg.py:parse_path_geom")
p("SVG arcs become the right elliptical arc",
  "EllipticalArc.from_endpoints returns, for every pair of different end points and radii that are not zero, an arc on an ellipse with the given radii (enlarged only if too small) and rotation through both points, with a sweep over half a turn exactly for the large arc flag and in the direction of the sweep flag; coincident end points do not raise.",
  "every pair of points, radii, rotation and flags", "Ranges over all real configurations.",
  "tcnc/geom/ellipse.py:EllipticalArc.from_endpoints")
p("Ellipse queries are right",
  "point_at traces exactly the points of the ellipse, derivative is its derivative, pointt inverts point_at, point_inside answers whether the point is inside, the focus points have the focal property, and the constructor normalises the axes without changing the ellipse.",
  "every ellipse, parameter and point", "Ranges over all real ellipses and points.",
  "tcnc/geom/ellipse.py:Ellipse")
p("bezier_ellipse follows the ellipse",
  "bezier_ellipse terminates and returns connected curves from the start to the end of the arc whose ends are on the ellipse and touch it there, each spanning at most a quarter turn.",
  "every ellipse and elliptical arc, in both directions", "Ranges over all sweeps, so over any number of pieces.",
  "tcnc/geom/bezier.py:bezier_ellipse", "tcnc/geom/bezier.py:bezier_elliptical_arc")
p("Circle intersections are exact",
  "intersect_circle returns exactly the points that are on both circles (none for coincident circles).",
  "every pair of circles", "Ranges over all real configurations, including touching ones.",
  "tcnc/geom/ellipse.py:intersect_circle")
p("Bezier circles, arcs and sine waves are accurate",
  "bezier_circle, bezier_circular_arc (for up to a quarter turn) and bezier_sine_wave return connected curves with the right end points; points of the first two are within 0.055 percent (in square) of the circle and the curve of an arc passes through its middle; the curves of a sine wave meet smoothly, pass through crests and troughs and never exceed the amplitude.",
  "every centre, radius, arc, amplitude, wavelength and number of cycles", "Ranges over all real parameters and all points of the curves.",
  "tcnc/geom/bezier.py:bezier_circle", "tcnc/geom/bezier.py:bezier_circular_arc", "tcnc/geom/bezier.py:bezier_sine_wave")
p("Offsetting an arc keeps its centre and angle",
  "Arc.offset returns, for every arc and distance, the concentric arc with the same angle whose radius is changed by the distance and whose ends are on the rays through the ends of the arc; its radius is never negative.",
  "every arc and distance", "Ranges over all real arcs and distances.",
  "tcnc/geom/arc.py:Arc.offset")
p("The arc from a tangent starts in the direction of the tangent",
  "Arc.from_two_points_and_tangent returns, for every start point, direction and end point, the circular arc that leaves the start point in that direction and ends at the end point.",
  "every pair of points and direction", "Ranges over all real configurations.",
  "tcnc/geom/arc.py:Arc.from_two_points_and_tangent")
p("Biarcs follow the Bezier curve",
  "biarc_approximation replaces consecutive parts of a Bezier curve, from its start to its end and leaving out none that can be seen, each by its chord or by two arcs that start and end with the part, are tangent to the curve there, meet with a common tangent, and stay within the tolerance of the curve.",
  "every curve, tolerance, recursion depth and flatness", "Ranges over all real curves, any number of parts and all points of the curve.",
  "tcnc/geom/bezier.py:CubicBezier.biarc_approximation", "tcnc/geom/bezier.py:CubicBezier.subdivide_inflections")
p("convex_hull returns the convex hull",
  "convex_hull returns, in counter-clockwise order and without repetition, points of its input such that no input point lies to the right of any edge and every corner turns left; collinear inputs give the two end points, one point gives itself and no points give an empty list.",
  "every finite list of points, in any order, with repetitions and collinear points", "Ranges over lists of any length and all real coordinates.",
  "tcnc/geom/polygon.py:convex_hull", "tcnc/geom/polygon.py:_keep_left", "tcnc/geom/polygon.py:turn")
p("convex_hull_chan returns the convex hull",
  "convex_hull_chan returns the same hull as convex_hull for every list of points.",
  "every finite list of points", "Ranges over lists of any length.",
  "tcnc/geom/polygon.py:convex_hull_chan", "tcnc/geom/polygon.py:_rtangent")
p("The preview follows the tool",
  "After every sequence of generator calls with a preview plotter, the preview has drawn exactly one line or arc for each call that moves the tool, from the location shown before the call to the location after it, and the location shown is the reported position of the tool up to the comparison tolerance; a call that succeeds without a preview succeeds with it.",
  "every history of generator calls and plotter settings", "Ranges over all histories of calls.",
  "tcnc/cam/gcodesvg.py:SVGPreviewPlotter.plot_move", "tcnc/cam/gcodesvg.py:SVGPreviewPlotter.plot_feed", "tcnc/cam/gcodesvg.py:SVGPreviewPlotter.plot_arc", "tcnc/cam/gcode.py:GCodeGenerator._endp")
p("The preview shows the arcs of the machine",
  "The SVG arc drawn for a G2/G3 block is the arc of the machine: the same centre, the same direction and the same angle.",
  "every arc call in every state", "Ranges over all real arcs, including those of more than half a turn.",
  "tcnc/cam/gcodesvg.py:SVGPreviewPlotter.plot_arc", "tcnc/svg/svg.py:SVGContext.create_circular_arc")
p("Tool marks divide a segment evenly",
  "With tool marks on, every feed adds marks at both ends and at the points that divide the segment in equal parts of about the marking interval, turned evenly from the angle before to the angle after, each as wide as the tool and trailing by its offset.",
  "every segment, interval, tool width, offset and rotation", "Ranges over all real segments, so over any number of marks.",
  "tcnc/cam/gcodesvg.py:SVGPreviewPlotter._draw_tool_marks", "tcnc/cam/gcodesvg.py:SVGPreviewPlotter._draw_tool_mark")
p("Whole programs traverse at the safe height and end raised",
  "In every program Tcnc writes, however the run ends, each rapid move in X or Y starts and ends with the machine at or above the safe height of the options; a completed program leaves the machine at the safe height.",
  "every document, option values and list of paths", "Ranges over all paths, so over programs of any length, and all settings.",
  "tcnc/tcnc.py:Tcnc.run", "tcnc/tcnc.py:Tcnc._init_gcode", "tcnc/tcnc.py:Tcnc._init_cam", "tcnc/cam/simplecam.py:SimpleCAM.generate_gcode")
p("The G code is in the declared unit",
  "Every program declares inches or millimetres in its header, as chosen by the options (document units: millimetres for metric documents, inches for the other absolute units), and the machine coordinates X, Y, Z in that unit are the positions in user units converted by the document's unit sizes and view scale.",
  "every document unit, view scale, option values and list of paths", "Ranges over all documents, coordinates and program lengths.",
  "tcnc/tcnc.py:Tcnc._init_gcode", "tcnc/svg/svg.py:SVGContext.uu2unit", "tcnc/cam/gcode.py:GCodeGenerator.set_units")
p("Heights are machine units",
  "The safe height given in the options (documented in machine units) is the height of the machine, in the unit of the G code, at the end of every completed program.",
  "every document and option values", "Ranges over all documents and settings.",
  "tcnc/tcnc.py:Tcnc._init_gcode", "tcnc/cam/gcode.py:GCodeGenerator.tool_up")
p("Depth options give the documented passes",
  "For all option values code generation ends; with a final depth and a depth per pass, whatever the sign of the latter, the passes go down by the depth per pass and never below the final depth; a depth per pass of zero or beyond the final depth gives one pass at the final depth; valid settings give a completed program.",
  "every option values and list of paths", "Ranges over all real depths, so over any number of passes.",
  "tcnc/tcnc.py:Tcnc._init_cam", "tcnc/cam/simplecam.py:SimpleCAM.generate_gcode")
p("Waits have the length of the options",
  "Every start of the spindle is followed at once by a wait of the option's number of seconds, and every wait after a tool movement lasts the option's number of seconds.",
  "every document, option values and list of paths", "Ranges over all programs.",
  "tcnc/tcnc.py:Tcnc._init_gcode", "tcnc/cam/gcode.py:GCodeGenerator.tool_up", "tcnc/cam/gcode.py:GCodeGenerator.dwell")
p("Angular feed matching moves the tool edge at the feed rate",
  "With angular feed matching the rate of the A axis makes the outside edge of a tool of the given width move at the XY feed rate; without, the rate is the option.",
  "every tool width and feed rate", "Ranges over all real widths and rates.",
  "tcnc/tcnc.py:Tcnc._init_gcode")
p("Output precision matches the tolerance",
  "Every number in the program is written with enough decimals for an error within the tolerance of the options (between 2 and 15 decimals); a tolerance that is not positive is refused.",
  "every tolerance, document, other option values and list of paths", "Ranges over all positive tolerances and programs.",
  "tcnc/tcnc.py:Tcnc._init_gcode", "tcnc/cam/gcode.py:GCodeGenerator.set_output_precision")
p("Options in document units are converted to user units",
  "The value of every option in document units, given or default, is the length in user units.",
  "every document unit, view scale and value", "Ranges over all documents and values.",
  "tcnc/inkscape/inkext.py:InkscapeExtension._post_process_options", "tcnc/inkscape/inkext.py:InkscapeExtension._process_options")
p("The spindle runs while cutting",
  "With a spindle option that turns it on (at the start or before every path), every cutting move of every program is executed with the spindle on.",
  "every document, option values and list of paths", "Ranges over all programs.",
  "tcnc/tcnc.py:Tcnc._init_gcode", "tcnc/cam/simplecam.py:SimpleCAM.plunge", "tcnc/cam/gcode.py:GCodeGenerator.tool_down")
p("Without the tangential axis nothing turns",
  "With the tangential axis disabled, every program keeps A at zero at every moment, and no compensation for tool width or trail is applied to the paths.",
  "every document, option values and list of paths", "Ranges over all programs and all moments in them.",
  "tcnc/tcnc.py:Tcnc._init_cam", "tcnc/cam/simplecam.py:SimpleCAM.generate_segment_gcode", "tcnc/cam/simplecam.py:SimpleCAM.preprocess_paths")
p("Shapes below a node are found with their transforms",
  "Collecting the shapes below a node lists, in document order, every shape element that is visible and not below a skipped layer, exactly once, each with the composition of the transforms of all its ancestors and its own; hidden elements and skipped layers contribute nothing; nodes that are not elements, such as comments, are ignored.",
  "every document tree, of any depth and width, with any transforms and styles", "Ranges over all trees.",
  "tcnc/inkscape/inksvg.py:InkscapeSVGContext.get_shape_elements", "tcnc/svg/svg.py:SVGContext.node_is_visible")
p("References draw what they refer to",
  "A use element draws the shapes of the element it refers to, moved by its x and y inside its own transform, also through nested references; a document in which no reference leads back to itself is flattened completely, and one with an endless reference is reported.",
  "every document tree with use elements, nested to any depth", "Ranges over all trees and reference graphs.",
  "tcnc/inkscape/inksvg.py:InkscapeSVGContext.get_shape_elements", "tcnc/svg/svg.py:SVGContext.parse_transform_attr")
p("What is cut is the drawing or the selection",
  "Tcnc cuts the visible shapes of the selection, or of the whole document if nothing is selected, each once, and never the layers it has drawn itself (preview, debug).",
  "every document and selection", "Ranges over all documents and selections.",
  "tcnc/tcnc.py:Tcnc.run", "tcnc/inkscape/inkext.py:InkscapeExtension.get_elements", "tcnc/inkscape/inksvg.py:InkscapeSVGContext.get_layer_name")
p("The machine follows the drawing",
  "For every drawing with a page size and shapes to cut, the program that is written moves the tool in X and Y, in this order, to the start of each shape and along it from corner to corner, once for each pass and at its depth, and nowhere else; the positions are those of the drawing measured from the lower left corner of the page, after all transforms, in units of the G code, to within the tolerance.",
  "every document, selection, option values and list of shapes", "Ranges over all documents and programs of any length.",
  "tcnc/tcnc.py:Tcnc.run", "tcnc/inkscape/inksvg.py:InkscapeSVGContext.__init__", "tcnc/svg/svg.py:SVGContext.__init__", "tcnc/svg/geomsvg.py:svg_to_geometry", "tcnc/cam/simplecam.py:SimpleCAM.generate_gcode")
p("The length of a curve is the arc length",
  "For every curve and positive tolerance the computation of the length ends and returns a value that differs from the true arc length by at most half the tolerance for each piece the curve was halved into, and every piece is flat to the tolerance; asking again with another tolerance gives the length to that tolerance.",
  "every Bezier curve and tolerance", "Ranges over all real control points and any depth of subdivision.",
  "tcnc/geom/bezier.py:CubicBezier.length", "tcnc/geom/bezier.py:CubicBezier.subdivide")
p("Derivatives and curvature of a curve",
  "The derivative functions return the first, second and third derivative of the curve; the curvature is the rate at which its unit tangent turns to the left per unit of length.",
  "every Bezier curve and parameter", "Ranges over all real curves and parameters.",
  "tcnc/geom/bezier.py:CubicBezier.derivative1", "tcnc/geom/bezier.py:CubicBezier.derivative2", "tcnc/geom/bezier.py:CubicBezier.derivative3", "tcnc/geom/bezier.py:CubicBezier.curvature_at")
p("Extrema of a curve bound it",
  "For every curve the returned parameters are exactly those inside the curve at which its tangent is horizontal or vertical, so that the box around the ends and the points at these parameters contains the whole curve.",
  "every Bezier curve", "Ranges over all real curves and parameters.",
  "tcnc/geom/bezier.py:CubicBezier.find_extrema")
p("Smoothing keeps the corners and joins smoothly",
  "Smoothing a connected path of lines and arcs returns one Bezier curve for each segment, with the same end points, such that each curve starts in the direction in which the one before it ended; in a closed path the first curve also starts in the direction in which the last one ended. Nothing of the path is lost.",
  "every path of lines, arcs and curves, of any length, open or closed, and every smoothness", "Ranges over all real paths of any length.",
  "tcnc/geom/bezier.py:smooth_path", "tcnc/geom/bezier.py:smoothing_curve")
p("Repair of the tangents of an offset path",
  "After the tool has been offset, every segment marked as having been smooth before is replaced by lines and arcs along a smooth curve with the same ends, the tool turning evenly from the angle at the start of the segment to the angle at its end; unmarked segments stay as they are; and the path is smooth again where marked segments meet their successors.",
  "every path of any length with any marks, tool angles and tolerances", "Ranges over all real paths of any length.",
  "tcnc/cam/offset.py:fix_G1_path", "tcnc/cam/offset.py:smoothing_arcs", "tcnc/geom/bezier.py:smoothing_curve")
p("Inside changes exactly at the sides",
  "For every polygon, convex or not, and every two points with a straight way between them that avoids the corners, one is inside and the other is not exactly if the way crosses an odd number of sides; so a point is inside exactly if a way from it to the far outside crosses an odd number of sides.",
  "every polygon with any number of vertices and every two points", "Ranges over all real polygons of any size.",
  "tcnc/geom/polygon.py:point_inside")
p("Clipping a line to a polygon",
  "Clipping a line to a polygon returns exactly the parts of the line that are inside the polygon, less those shorter than the tolerance.",
  "every polygon with any number of vertices and every line", "Ranges over all real polygons of any size and all lines.",
  "tcnc/geom/polygon.py:intersect_line", "tcnc/geom/polygon.py:point_inside")
p("Fillets round the corners of a polyline",
  "If there is room for fillets of the given radius at the corners of a polyline or polygon, the result is a path that is smooth everywhere (for a closed polygon also where it closes) and consists of parts of the sides and of arcs of that radius that touch two adjacent sides at equal distances from the corner; straight corners stay; a fillet that does not fit, to the tolerance, is never inserted.",
  "every polyline and polygon with any number of corners, and every radius", "Ranges over all real polylines of any length.",
  "tcnc/geom/fillet.py:fillet_polygon", "tcnc/geom/fillet.py:fillet_path", "tcnc/geom/fillet.py:insert_fillet", "tcnc/geom/fillet.py:fillet_line_line")
p("Layers are found, made and numbered without loss",
  "Creating a layer with a numeric suffix ends and returns an empty layer that has the name asked for, or the name with the first free number if that layer has something in it, without changing anything else in the drawing; without the suffix the first layer of that name is used (emptied if asked for) and nothing else changes, or a new one is added at the end; a new layer has the opacity (limited to 0..1) and orientation asked for; running again empties the layer of the last run and adds nothing.",
  "every document tree, layer name and argument", "Ranges over all trees of any size and any number of numbered layers.",
  "tcnc/inkscape/inksvg.py:InkscapeSVGContext.create_layer", "tcnc/inkscape/inksvg.py:InkscapeSVGContext.find_layer", "tcnc/inkscape/inksvg.py:InkscapeSVGContext.clear_layer")
p("Running again cuts the same",
  "What a run of tcnc adds to the drawing in its own layers (preview, debug) does not change what the next run cuts: the same elements with the same transforms in the same order, or the same exception.",
  "every document tree and everything drawn in tcnc's own layers", "Ranges over all trees and all contents.",
  "tcnc/tcnc.py:Tcnc.run", "tcnc/inkscape/inksvg.py:InkscapeSVGContext.create_layer", "tcnc/inkscape/inksvg.py:InkscapeSVGContext.get_shape_elements")
p("Visible layers, their elements, and the margins",
  "The visible layers are exactly the layers at the top of the drawing that nothing switches off, the elements of a layer exactly its children that nothing switches off, in order; and the rectangle within given margins (as in CSS) contains exactly the points that are at least the margins away from the sides of the page.",
  "every document tree, page size and margins", "Ranges over all trees and all real margins.",
  "tcnc/inkscape/inksvg.py:InkscapeSVGContext.get_visible_layers", "tcnc/inkscape/inksvg.py:InkscapeSVGContext.get_layer_elements", "tcnc/inkscape/inksvg.py:InkscapeSVGContext.margin_cliprect")
p("Grids of lines stay within the margins, and end",
  "Whatever the angle, spacing, variation and random jitter of a grid are, every line drawn is within the margins (to the tolerance) and not shorter than the tolerance; and with positive spacing the lines are found after finitely many rounds, without an exception.",
  "every rectangle, angle, spacing, variation of spacing, and every sequence of random numbers", "Ranges over all real settings and all random sequences.",
  "tcnc/lines.py:LineSet.make_lines", "tcnc/lines.py:LineSet.scaled_spacing", "tcnc/lines.py:LineSet.angle_jittered_line", "tcnc/geom/box.py:Box.clip_line")
p("Grid lines are evenly spaced at the angle asked for",
  "Without variation and jitter the lines of a grid have the angle asked for and the distance asked for from one another, from the lower (or left) side to the other, and each is drawn as far as it is within the margins.",
  "every rectangle, angle and spacing", "Ranges over all real settings and any number of lines.",
  "tcnc/lines.py:LineSet.__init__", "tcnc/lines.py:LineSet.make_lines", "tcnc/lines.py:LineSet.scaled_spacing")
p("Order, direction and connection of grid lines",
  "Lines are drawn in the direction asked for (reversed, alternating), doubled lines are drawn there and back, connecting adds exactly the missing straight lines from the end of one line to the start of the next so that one continuous path results, paths are the longest continuous runs of lines, and alternating horizontal and vertical paths are drawn in turn, each once.",
  "every list of lines of any length and all options", "Ranges over lists of any length.",
  "tcnc/lines.py:Lines.insert_reversed_lines", "tcnc/lines.py:Lines.insert_connectors", "tcnc/lines.py:Lines.connected_paths", "tcnc/lines.py:Lines.run")
p("Written path data reads back as the same figure",
  "The path data written for a line, an arc, a Bezier curve, a polygon (of at least two vertices) or a path of lines, arcs and curves is well-formed, and reading it gives exactly the move, lines, arcs and curves that were given, in order, with every number rounded to six decimals (within half a millionth, numbers that have six decimals exactly).",
  "every shape, polygon and path of any length with rational (so every finite floating-point) coordinates", "Ranges over paths of any length and all coordinates.",
  "tcnc/svg/svg.py:SVGContext.create_line", "tcnc/svg/svg.py:SVGContext.create_circular_arc", "tcnc/svg/svg.py:SVGContext.create_curve", "tcnc/svg/svg.py:SVGContext.create_polygon", "tcnc/svg/svg.py:SVGContext.create_polypath", "tcnc/svg/svg.py:parse_path")
p("Written arcs and ellipses mean the given ones",
  "The arc and ellipse commands written to the drawing describe, by the rules of SVG, the arc (with its centre and its sweep) and the whole ellipse that were given.",
  "every arc and ellipse", "Ranges over all real arcs and ellipses.",
  "tcnc/svg/svg.py:SVGContext.create_circular_arc", "tcnc/svg/svg.py:SVGContext.create_polypath", "tcnc/svg/svg.py:SVGContext.create_ellipse")
p("New documents have the size, units and layer asked for",
  "A newly created document opens with the width and height asked for in the units asked for, its size being written in the shortest decimal form; it has a layer exactly if one is asked for, and it is found by its name.",
  "every width, height, unit and name", "Ranges over all numbers and names.",
  "tcnc/svg/svg.py:create_svg_document", "tcnc/inkscape/inksvg.py:create_inkscape_document", "tcnc/svg/svg.py:SVGContext")
p("Fresh identifiers",
  "An identifier generated for a document is not one that an element of the document already has.",
  "every document and every sequence of random numbers", "Ranges over all documents and random sequences.",
  "tcnc/svg/svg.py:random_id")
p("Written transforms mean the given matrix",
  "The transform attribute written for any matrix can be read back and moves every point to where the matrix moves it, to half a millionth of the coordinates (exactly if the numbers have six decimals); only the identity is taken for the identity.",
  "every matrix and every point", "Ranges over all real matrices and points.",
  "tcnc/svg/svg.py:transform_attr", "tcnc/svg/svg.py:SVGContext.parse_transform_attr", "tcnc/geom/transform2d.py:is_identity_transform")
p("Repeated copies are where they are asked for",
  "The repeater ends and adds for every selected element the number of copies asked for, each the same element with the same content, the first moved by the interval in the direction of the angle, the second by twice the interval, and so on.",
  "every selection, number of copies, interval and angle", "Ranges over all elements with all transforms and any number of copies.",
  "tcnc/repeater.py:Repeater.run", "tcnc/svg/svg.py:transform_attr")
p("Shuffling keeps the paths",
  "Shuffling puts exactly the paths that are visible in the layers (or that are selected), or exactly their pieces, into a new layer, each once, in the order asked for and at the place and with the style they had, and changes nothing else in the drawing; if there is nothing to do it does nothing.",
  "every document, selection, option and random order", "Ranges over all trees and all permutations.",
  "tcnc/pathshuffler.py:BreakShuffle.run")
p("Simplifying polylines before smoothing",
  "Simplifying a path keeps its curves, its order and its ends: the result is connected, begins and ends where the path does, uses only vertices of the path, and no point of a line of the path is further than the tolerance from it.",
  "every path of lines and curves of any length and every non-negative tolerance", "Ranges over all real paths of any length.",
  "tcnc/polysmooth.py:PolySmooth.simplify_polylines", "tcnc/polysmooth.py:PolySmooth._simplify_polyline", "tcnc/geom/polygon.py:simplify_polyline_rdp")
p("Smoothed paths go where they belong",
  "Every smoothed path is written exactly once, in order, either into the new layer or to the place of the element it replaces.",
  "every element with any number of paths", "Ranges over lists of any length.",
  "tcnc/polysmooth.py:PolySmooth.run")
p("Outline of the tool marks",
  "Each side of the outline drawn for the tool marks is a connected path that begins at the first mark, ends at the last one, has no loops, and passes through the marks except where loops and turns back are collapsed; drawing it never fails.",
  "every list of tool marks of any length", "Ranges over all real point lists of any length.",
  "tcnc/cam/gcodesvg.py:SVGPreviewPlotter._make_outline_path", "tcnc/cam/gcodesvg.py:SVGPreviewPlotter._fix_intersections", "tcnc/cam/gcodesvg.py:SVGPreviewPlotter._fix_reversals")
p("Sub-paths of a wide tool",
  "For every distance the sub-paths are drawn at the multiples of the distance that are less than the width of the tool, through the points of the tool marks at that distance from their first end, and the drawing ends.",
  "every distance, width and list of tool marks", "Ranges over all real numbers; termination.",
  "tcnc/cam/gcodesvg.py:SVGPreviewPlotter._draw_subpaths")
p("Faces of a planar graph",
  "get_face_polygons always returns; every face of the drawing that is enclosed by edges is returned as one polygon that runs along edges with the face on its left, no side of an edge belongs to two polygons, and the result does not depend on the order of the nodes.",
  "every graph, every iteration order of the node map", "Ranges over all graphs of any size and all iteration orders.",
  "tcnc/geom/planargraph.py:make_face_polygons", "tcnc/geom/planargraph.py:make_face", "tcnc/geom/planargraph.py:find_free_edge_node", "tcnc/geom/planargraph.py:Graph.get_face_polygons")
p("Boundary of a planar graph",
  "boundary_polygon never fails, starts at a lowest vertex, and is the closed walk along the outer edges of the graph.",
  "every graph, after every history of additions, removals and queries", "Ranges over all graphs and histories.",
  "tcnc/geom/planargraph.py:Graph.boundary_polygon", "tcnc/geom/planargraph.py:Graph._build_boundary_polygon", "tcnc/geom/planargraph.py:GraphNode.ccw_edge_node")
p("Longest paths of a graph",
  "build_longest_paths returns paths along edges that repeat no edge, longest first, without duplicates, and no longer path was found from any edge.",
  "every graph, every order of the edges, every strategy and every outcome of the random choices", "Ranges over all graphs, set iteration orders and random choices.",
  "tcnc/geom/planargraph.py:GraphPathBuilder.build_longest_paths", "tcnc/geom/planargraph.py:GraphPathBuilder._dedupe_paths")
p("Adding a polygon to a graph",
  "add_poly adds exactly the sides of the polygon or polyline, the closing side only if asked for, and leaves the graph consistent.",
  "every graph and every list of vertices", "Ranges over all vertex lists and graph states.",
  "tcnc/geom/planargraph.py:Graph.add_poly")
p("Voronoi diagrams end and are complete",
  "Computing a Voronoi diagram always ends, with no exception; each pair of neighbouring points has exactly one edge, the end points of the edges are vertices of the diagram, and the numbers of edges, vertices and triangles fit together.",
  "every list of points, every behaviour of floating point arithmetic", "Ranges over point lists of any length and any arithmetic; termination.",
  "tcnc/geom/voronoi.py:VoronoiDiagram", "tcnc/geom/voronoi.py:_EdgeList", "tcnc/geom/voronoi.py:_PriorityQueue", "tcnc/geom/voronoi.py:_HalfEdge")
p("Voronoi edges and vertices",
  "The equation of each Voronoi edge is the perpendicular bisector of its two input points, each vertex is equally far from three different input points, the triangles have input points as corners, and jiggling moves degenerate points by a small distance.",
  "every list of points", "Ranges over all real point lists of any length.",
  "tcnc/geom/voronoi.py:_Edge.__init__", "tcnc/geom/voronoi.py:_HalfEdge.intersect", "tcnc/geom/voronoi.py:DelaunayTriangle.p3", "tcnc/geom/voronoi.py:jiggle")
p("The Voronoi sweep is in order",
  "The sweep handles the points from bottom to top and from left to right, and never handles a point or a vertex while another point or vertex that is due earlier is waiting.",
  "every list of points and every state the main loop goes through", "Ranges over point lists of any length and all states of the loop.",
  "tcnc/geom/voronoi.py:_PriorityQueue.insert", "tcnc/geom/voronoi.py:_PriorityQueue.get_min_point", "tcnc/geom/voronoi.py:_SiteList", "tcnc/geom/voronoi.py:VoronoiDiagram._compute_voronoi")
p("Quasicrystal tilings: which tiles",
  "Quasi.quasi draws, once each and in rings outwards from the middle, one unit rhombus for every crossing of two grid lines of different directions that lies well inside the lines of all other directions, and nothing else; it always finishes, also for even symmetries.",
  "every symmetry, number of lines, offset and plotter", "Ranges over all symmetries, sizes and offsets; termination.",
  "tcnc/geom/quasi.py:Quasi.quasi", "tcnc/geom/quasi.py:Quasi._init_vectors", "tcnc/geom/quasi.py:_QVector")
p("Quasicrystal tilings: tiles and grid cells",
  "The corners of each tile stand for the four cells of the line grid that meet at its crossing, so that tiles of neighbouring crossings on one grid line share a side.",
  "every tiling and every crossing through which no third line passes", "Ranges over all tilings and all pairs of neighbouring crossings.",
  "tcnc/geom/quasi.py:Quasi.quasi", "tcnc/geom/quasi.py:Quasi._plot")
p("Quasicrystal tilings: segments",
  "Each tile that the plotter draws whole is followed at once by the segments of the kind set for skinny or fat tiles, between the points of the sides or the corners that the kind names; a clipped tile gets none.",
  "every tiling, segment kind, ratio and sequence of plotter replies", "Ranges over all tilings, settings and plotter behaviours.",
  "tcnc/geom/quasi.py:Quasi._plot", "tcnc/geom/quasi.py:QuasiPlotter")
p("Quasicrystal drawings: segment chains",
  "Chaining the segments always ends and draws every segment in exactly one line, each line running from end to end of segments that meet, extended as far as the segments that are left allow; the lines around the largest area come first, and a closed polygon of segments is drawn as one closed line.",
  "every list of segments and every tolerance", "Ranges over segment lists of any length and order; termination.",
  "tcnc/quasink.py:Quasink._create_chains", "tcnc/quasink.py:_SegmentChain", "tcnc/quasink.py:Quasink._draw_segment_chains")
p("Quasicrystal drawings: spherical projection",
  "The spherical projection is defined for every point, moves points only along their ray from the centre, leaves what is outside the circle alone, keeps the inside inside, and never folds two points onto one.",
  "every point, centre, radius and direction", "Ranges over all points and radii.",
  "tcnc/quasink.py:SphericalProjector.project")
p("Quasicrystal drawings: what is kept",
  "The plotter keeps exactly the tiles and boxes that lie, after placement, with all corners in the clipping region, once each and in the order they were plotted, each with its own colour; it reports for each tile whether it was kept, and knows the bounding box of what it kept.",
  "every clipping region, placement and sequence of plotted tiles, segments and boxes", "Ranges over all sequences of calls and all regions.",
  "tcnc/quasink.py:_QuasiPlotter.plot_polygon", "tcnc/quasink.py:_QuasiPlotter.plot_segment", "tcnc/quasink.py:_QuasiPlotter.plot_segpoly", "tcnc/quasink.py:_QuasiPlotter.bbox")
p("Quasicrystal drawings: placement",
  "The tiling is scaled and turned about its middle, which is put in the middle of the page plus the offset; only what lies inside the page, the margins or the largest circle in them (as chosen) is drawn, nothing if they leave no room; centering and re-centering move everything together to the middle of that region.",
  "every page, margin, scale, rotation and offset setting, every finished tiling", "Ranges over all real settings.",
  "tcnc/quasink.py:Quasink.run", "tcnc/quasink.py:_QuasiPlotter.recenter")
p("Quasicrystal drawings: colours and layers",
  "Every tile, box, edge and segment that was kept is drawn once; tiles and boxes of one kind get one colour, ordered by kind, also if the tiles are sorted; edges use the colours in turn, each in the layer of its colour, scaled about their middle and cut to the margins.",
  "every finished tiling, colour table, offset and layer option", "Ranges over tilings of any size and all tables.",
  "tcnc/quasink.py:Quasink._draw_polygons", "tcnc/quasink.py:Quasink._draw_segboxes", "tcnc/quasink.py:Quasink._draw_polygon_segments", "tcnc/quasink.py:Quasink._draw_segments")
p("Quasicrystal drawings: inset tiles",
  "An inset tile lies inside its tile with every side at exactly the inset from the side of the tile; tiles too small for it get none; layer n is inset by n times the spacing.",
  "every parallelogram, inset and number of layers", "Ranges over all real parallelograms and insets.",
  "tcnc/quasink.py:Quasink._inset_polygon", "tcnc/quasink.py:Quasink._draw_inset_polygons")
p("Quasicrystal drawings: drawing order",
  "Sorting keeps every tile, edge and segment once and orders them ring by ring around the middle, inside out or outside in, and counterclockwise in each ring.",
  "every list of tiles or segments, every middle and ring width", "Ranges over lists of any length.",
  "tcnc/quasink.py:Quasink.run")
p("Voronoi drawings: what is drawn of the diagram",
  "The Voronoi extension draws, for every edge of the diagram and in their order, exactly the part of the edge that is on the page, edges without an end going on to the border; with a polygon, the parts inside it as well.",
  "every page, polygon and diagram, with any number of finite and infinite edges", "Ranges over all diagrams and pages, and all directions of infinite edges.",
  "tcnc/voronoi.py:Voronoi._clipped_voronoi_segments", "tcnc/voronoi.py:Voronoi._clipped_poly_voronoi_segments", "tcnc/geom/voronoiclip.py:clip_voronoi_segments")
p("Voronoi drawings: Delaunay edges in a polygon",
  "Without a clipping polygon every Delaunay edge is drawn; with one, exactly those that are sides of the polygon or run inside it.",
  "every polygon, convex or not, and every list of edges", "Ranges over all polygons and edges.",
  "tcnc/voronoi.py:Voronoi._clipped_delaunay_segments", "tcnc/voronoi.py:Voronoi._line_inside_hull")
p("Graph: peeled boundary polygons",
  "Peeling ends and returns polygons along edges of the graph, each strictly inside the one before: each goes round what is left of the graph inside the polygon before it, dead ends left out, until there is nothing left to go round.",
  "every graph, polygon and iteration order", "Ranges over graphs with any number of nodes and layers.",
  "tcnc/geom/planargraph.py:Graph.peel_boundary_polygon")
p("Styles from templates",
  "Every style is its template with each name replaced by the user's setting, or by the default without one; numbers and texts are written as they are, lengths in user units of the document; a name without value raises an exception. Scaling an inline style changes only the lengths in it.",
  "every template, table of defaults, setting and page scale, for every extension", "Ranges over all texts and settings.",
  "tcnc/svg/svg.py:SVGContext.styles_from_templates", "tcnc/svg/svg.py:SVGContext.scale_inline_style", "tcnc/polypath.py:PolyPath._styles", "tcnc/quasink.py:Quasink._styles")
p("Styles of the line grids and of the preview",
  "Grid lines have the colour, width and opacity asked for (one point for a width of 0, a tenth for an opacity of 0), the vertical ones those of the horizontal ones if they are to be copied; the preview has the line widths of the scale asked for; an unknown scale raises an exception.",
  "every setting, page scale and colour text", "Ranges over all real settings and colours.",
  "tcnc/lines.py:Lines.run", "tcnc/cam/gcodesvg.py:SVGPreviewPlotter.__init__")
p("Pipe lines between two paths",
  "The extension turns the second path to face the first one, joins starts, ends and the vertices (along their bisectors) by guides in the order along both paths, and draws the number of lines asked for, or as many as keep a largest spacing, each dividing every guide in the same ratio. Nothing is drawn unless two paths of line segments are selected.",
  "every two paths of line segments, every number of lines and largest spacing", "Ranges over all real paths of any length.",
  "tcnc/pipelines.py:PipeLines._get_segments", "tcnc/pipelines.py:PipeLines._get_polylines", "tcnc/pipelines.py:PipeLines._linex_segment")
p("Paths, offsets and hulls of a drawing",
  "The polypath extension joins the segments of the drawing to paths that use each exactly once and draws those with the number of segments asked for; the longest paths in layers of their own; the offsets of the cells; the convex hull of all points; the outer hull and the inner ones, nested. It draws what is asked for and nothing else, without an exception.",
  "every drawing, option, random choice and iteration order", "Ranges over drawings of any size and all random outcomes.",
  "tcnc/polypath.py:PolyPath.run", "tcnc/polypath.py:PolyPath._draw_polypaths", "tcnc/polypath.py:PolyPath._draw_longest_polypaths", "tcnc/polypath.py:PolyPath._offset_polys", "tcnc/polypath.py:PolyPath._draw_polygon_hulls")
p("Counting fill colours",
  "The colour key shows each fill colour once with the number of elements that have it, and the total, in rows that do not overlap; every path gets the tag of its colour, equal tags mean equal fills; each colour has a layer with copies of exactly its elements; the extension finishes.",
  "every drawing, option and iteration order", "Ranges over drawings of any size, style texts and dictionary orders.",
  "tcnc/colorcount.py:ColorCount.run", "tcnc/colorcount.py:ColorCount._draw_color_key_shapes", "tcnc/colorcount.py:ColorCount._tag_shapes", "tcnc/colorcount.py:ColorCount._copy_to_layer")
p("Ellipses inscribed in parallelograms",
  "ellipse_in_parallelogram returns an ellipse that touches all four sides and stays inside, the largest possible one (or a circle, in a rhombus) if asked; the quasicrystal extension draws it in every tile, smaller by the inset, inside the tile.",
  "every parallelogram, eccentricity and inset", "Ranges over all real parallelograms and, for the largest area, over all ellipses inside.",
  "tcnc/geom/ellipse.py:ellipse_in_parallelogram", "tcnc/quasink.py:Quasink._draw_polygon_ellipses", "tcnc/quasink.py:Quasink._draw_polygon_circles")
p("Eccentricity and curvature of ellipses",
  "eccentricity() is the eccentricity of the ellipse with respect to its focus points; curvature(p) at a point of the ellipse is the rate at which the ellipse turns there.",
  "every ellipse with positive axes and every point of it", "Ranges over all real ellipses and points; a derivative.",
  "tcnc/geom/ellipse.py:Ellipse.eccentricity", "tcnc/geom/ellipse.py:Ellipse.curvature", "tcnc/geom/ellipse.py:Ellipse.focus_points")
p("Quasicrystal drawings: margins and frame",
  "If asked for, the margins and the box around the tiling are drawn, and a frame that leaves open exactly the width and height asked for around the middle of the document; nothing otherwise.",
  "every page, margin, clipping and frame setting", "Ranges over all real settings.",
  "tcnc/quasink.py:Quasink._draw_margins", "tcnc/quasink.py:Quasink._draw_frame")
p("Voronoi drawings: points and layers",
  "The Voronoi extension draws the diagram of the end points of all segments of the selected shapes, each taken once, in the layers asked for; the closed cells are the largest part of the clipped edges without loose ends; triangles join points of the diagram; sides of the polygon are kept; it finishes without an exception.",
  "every drawing, option, page, iteration order and random outcome", "Ranges over drawings of any size, all iteration orders and random numbers; termination.",
  "tcnc/voronoi.py:Voronoi.run", "tcnc/voronoi.py:Voronoi._draw_voronoi", "tcnc/geom/planargraph.py:Graph.cull_open_edges")
p("Tolerance and rounding precision",
  "set_epsilon(v) sets the tolerance, its square and a rounding precision that matches it: the number of digits of the power of ten nearest to v; a value that is refused changes nothing. float_round returns the nearest multiple of that power of ten, equal to the number within the tolerance.",
  "every tolerance, earlier setting and number", "Ranges over all real tolerances (logarithms) and numbers.",
  "tcnc/geom/const.py:set_epsilon", "tcnc/geom/const.py:float_round", "tcnc/geom/const.py:float_eq")
p("Polygon offsets",
  "offset_polygons accepts every polygon and returns closed polygons whose vertices are where the offset library puts them, up to the resolution of the rounding precision; an empty list if the offset cannot be performed.",
  "every polygon, offset, tolerance and behaviour of the library", "Ranges over polygons of any size and all results of the library.",
  "tcnc/geom/polygon.py:offset_polygons", "tcnc/geom/polygon.py:poly2clipper", "tcnc/geom/polygon.py:clipper2poly", "tcnc/contrib/clipper.py:OffsetPolygons", "tcnc/contrib/clipper.py:_StripDupPts")
p("Extrema and bounding box of a curve along its chord",
  "find_extrema_align returns points of the curve, exactly those where it goes on along or across its chord (or stands still), and, if asked, the four corners of the smallest rectangle along the chord that contains both end points and these points.",
  "every cubic curve with two different end points", "Ranges over all real curves; derivatives.",
  "tcnc/geom/bezier.py:CubicBezier.find_extrema_align", "tcnc/geom/bezier.py:CubicBezier.find_extrema_points", "tcnc/geom/box.py:Box.vertices")
p("Equations of lines",
  "slope, slope_intercept and general_equation return the coefficients of an equation that holds for exactly the points of the line; slope of a vertical line is infinite.",
  "every line through two different points", "Ranges over all real lines and points.",
  "tcnc/geom/line.py:Line.slope", "tcnc/geom/line.py:Line.slope_intercept", "tcnc/geom/line.py:Line.general_equation")
p("Start angle of an arc and the area it cuts off",
  "start_angle() is the angle at which the arc starts as seen from its centre; segment_area() is the area between the arc and its chord.",
  "every arc", "Ranges over all real arcs; the area is an integral.",
  "tcnc/geom/arc.py:Arc.start_angle", "tcnc/geom/arc.py:Arc.segment_area")
p("Values of the options",
  "Each option has the value that the text given last means for its type: switches in small or capital letters, angles in degrees, lengths in the unit of the document; an option that is not given has its default in the same units; a text that cannot be understood, or an unknown option, ends the program with a message that names it.",
  "every table of options, every sequence of options given and every iteration order", "Ranges over all texts and sequences of any length.",
  "tcnc/inkscape/inkext.py:InkscapeExtension._process_options", "tcnc/inkscape/inkext.py:InkscapeExtension._post_process_options", "tcnc/inkscape/inkext.py:_check_inkbool", "tcnc/inkscape/inkext.py:_check_degrees", "tcnc/tcnc.py:Tcnc")
p("Markers of the preview",
  "create_simple_marker puts the marker in the definitions of the document, which it adds if there are none, and with replace it takes the place of the old one: exactly one element has its id, looking for the id finds it, nothing else changes; making the preview again leaves the document as if only the last one had been made; every marker that a style of the preview refers to is there, in the colour of the lines.",
  "every document, list of markers and styles", "Ranges over document trees of any size and all histories of previews.",
  "tcnc/svg/svg.py:SVGContext.create_simple_marker", "tcnc/cam/gcodesvg.py:SVGPreviewPlotter.__init__")
p("Rectangles, circles and texts that are written",
  "A rectangle or circle that is created is read back as the same rectangle or circle, with the style given; a text is written at its place, a list of lines one below the other at the distance of the line height.",
  "every position, size, style, text and list of lines", "Ranges over all numbers and lists of any length.",
  "tcnc/svg/svg.py:SVGContext.create_rect", "tcnc/svg/svg.py:SVGContext.create_circle", "tcnc/svg/svg.py:SVGContext.create_text")
p("Path data of single segments",
  "to_svg_path of a line, an arc or a curve is a text that the path parser reads back as this segment, with all numbers rounded to six digits.",
  "every line, arc and curve", "Ranges over all numbers.",
  "tcnc/geom/line.py:Line.to_svg_path", "tcnc/geom/arc.py:Arc.to_svg_path", "tcnc/geom/bezier.py:CubicBezier.to_svg_path")
p("Corners of a polygon and the rays from them",
  "The corners of a polygon that are reported as sticking out (pointing in) are those that turn the way the polygon goes round (against it), each once, in whichever order the vertices are listed; the polygon without the corners that point in has the other vertices and the followers of those that point in; the ray from a corner starts at its vertex, bisects its angle, leads away from its sides and ends on the edge of the rectangle.",
  "every polygon, corner and rectangle", "Ranges over all polygons of any size and all real coordinates.",
  "tcnc/polypath.py:PolyPath._convex_vertices", "tcnc/polypath.py:PolyPath._concave_vertices", "tcnc/polypath.py:PolyPath._get_polygon_rays")
p("Tool path lists",
  "biarc_approximation adds a path to the end of the tool path in order, curves as lines and arcs, and raises ToolpathException for any other segment; verify_continuity says whether every segment starts where the one before ends; is_closed says whether the last segment ends where the first one starts.",
  "every tool path and every path added to it", "Ranges over paths of any length and all real coordinates.",
  "tcnc/cam/toolpath.py:Toolpath.biarc_approximation", "tcnc/cam/toolpath.py:Toolpath.verify_continuity", "tcnc/cam/toolpath.py:Toolpath.is_closed")
p("Position queries and tool flip",
  "get_current_position_xy, get_current_position and the properties X, Y, Z, A give the position of the machine in user units, None for axes that never moved; flip_tool turns the tool half a turn from then on.",
  "every history of calls of the generator", "Ranges over histories of any length.",
  "tcnc/cam/gcode.py:GCodeGenerator.get_current_position_xy", "tcnc/cam/gcode.py:GCodeGenerator.get_current_position", "tcnc/cam/simplecam.py:SimpleCAM.flip_tool")
p("Dialogs",
  "Whatever is entered in the dialog of an extension, its program accepts it, and every field of the dialog is an option of the program that gets the value entered; every dialog runs a program that exists and is a well-formed document.",
  "every dialog, every way to fill it in and every order of the arguments", "Ranges over all texts and numbers that can be entered.",
  "inkinx/tcnc.inx:inkscape-extension", "tcnc/inkscape/inkext.py:InkscapeExtension._process_options", "tcnc/tcnc.py:Tcnc")
p("Drawing a sine wave",
  "The sine wave extension draws one path in a layer of its own: from the origin, four curves per cycle that end at the crest, on the axis, in the trough and on the axis, a quarter of a wavelength apart, upwards from the lower edge of the page; without cycles it draws nothing.",
  "every document, amplitude, wavelength, number of cycles and origin", "Ranges over all numbers, any number of cycles and all documents.",
  "tcnc/sinewave.py:SineWave.run", "tcnc/geom/bezier.py:bezier_sine_wave", "tcnc/svg/svg.py:SVGContext.create_polypath")
p("Simplified sub-paths and the outline of the tool marks",
  "A sub-path is simplified to a connected path with the same ends, some of its vertices, and within the tolerance; what is drawn leads from the first tool mark to the last one, at the offset; the outline has two sides that lead from the first tool mark to the last one; nothing is raised.",
  "every list of tool marks, offset and tolerance", "Ranges over lists of any length and all real coordinates.",
  "tcnc/cam/gcodesvg.py:SVGPreviewPlotter._draw_subpaths", "tcnc/cam/gcodesvg.py:SVGPreviewPlotter._simplify_path", "tcnc/cam/gcodesvg.py:SVGPreviewPlotter._draw_toolmark_outline")
p("The header of the program and its settings",
  "A program starts with comments that name the date, the machine, the version, the number of paths and - if asked for - the settings: every option whose value is not its default, once, in the order of the table, and no other; given again as options, the settings listed have the same values.",
  "every table of options, all values, every drawing and run", "Ranges over all values and tables and over every run.",
  "tcnc/tcnc.py:Tcnc._init_gcode", "tcnc/cam/simplecam.py:SimpleCAM.generate_header", "tcnc/cam/gcode.py:GCodeGenerator.header", "tcnc/cam/gcode.py:GCodeGenerator.add_header_comment")
p("What an extension finds when it is run",
  "With a file, an extension runs on that document and its lengths are in the unit of that document; without a file it runs on a new page of the width, height and unit given, or of 500 by 500 pixels, and its options have the values given.",
  "every table of options, every sequence of options given, every document and iteration order", "Ranges over all documents and sequences of any length.",
  "tcnc/inkscape/inkext.py:InkscapeExtension.main", "tcnc/inkscape/inksvg.py:create_inkscape_document")
p("What a document says about itself and its layers",
  "get_parent_layer gives the layer an element is in; get_selected_layer gives the layer the document names as current and what is drawn goes there, or into the root if there is none; a renamed layer is found under its new name; layer_is_locked tells whether a layer is locked; get_document_name gives the name of the document.",
  "every document, element and layer name", "Ranges over trees of any size and depth.",
  "tcnc/inkscape/inksvg.py:InkscapeSVGContext.get_parent_layer", "tcnc/inkscape/inksvg.py:InkscapeSVGContext.get_selected_layer", "tcnc/inkscape/inksvg.py:InkscapeSVGContext.set_layer_name",
  "tcnc/inkscape/inksvg.py:InkscapeSVGContext.layer_is_locked", "tcnc/inkscape/inksvg.py:InkscapeSVGContext.get_document_name")
p("What of a drawing the program depends on",
  "The program depends on the elements of the drawing, their order and a short list of their attributes only: two drawings that agree in these give the same programs, whatever else is in them; locked, clipped and masked layers are left out or cut as they are seen.",
  "every two drawings that agree in the attributes listed, every selection, option and run", "Ranges over all drawings and all values of all other attributes.",
  "tcnc/tcnc.py:Tcnc.run", "tcnc/inkscape/inksvg.py:InkscapeSVGContext.get_shape_elements", "tcnc/svg/geomsvg.py:svg_element_to_geometry")
p("Lines are cut straight and arcs along their circle",
  "In every completed program each path is cut segment by segment with one block each: a line with a straight feed, an arc with a circular feed in its direction about its centre, and traverses are rapid moves.",
  "every document, setting and list of paths of lines and arcs", "Ranges over all settings, over paths of any length and over the whole history of moves before each block.",
  "tcnc/cam/simplecam.py:SimpleCAM.generate_segment_gcode", "tcnc/cam/gcode.py:GCodeGenerator.feed_arc", "tcnc/cam/gcode.py:GCodeGenerator.gcode_command")
p("Each processing option changes the paths in its own way only",
  "With one processing option of the program on and the others off, the paths that are cut are the given ones, changed as the option says and not otherwise: sorting orders them by their start points, 'flip' turns some round, splitting cuts them apart at the junctions that are not smooth, tool width compensation and smoothing round the corners of polygons with the configured radius, the trail offset moves them forward by the offset, and the brush options add the configured strokes before and after each; an option with a width, radius or offset that is not positive changes nothing.",
  "every list of paths of lines and arcs (for the two fillet options, of lines), every value of the settings", "Ranges over all paths and settings; the option must also reach the whole run, not only the helper that implements it.",
  "tcnc/cam/simplecam.py:SimpleCAM.generate_gcode", "tcnc/cam/simplecam.py:SimpleCAM.preprocess_paths", "tcnc/cam/paintcam.py:PaintCAM.preprocess_paths")
p("Circles and lines of a drawing are cut where they are on the page",
  "For a drawing of circles, lines, rectangles, polylines and path data of lines and circular arcs, with transforms that move, turn and reflect, the program cuts every line with a straight feed and every arc with a circular feed about the point of the page where its centre is, in the direction in which it appears, measured from the lower left corner of the page.",
  "every document with a size and units, every selection and setting that leaves the paths alone, all shapes of lines and arcs and all their transforms", "Ranges over all drawings and settings, from the text of the attributes to the blocks of the program.",
  "tcnc/tcnc.py:Tcnc.run", "tcnc/svg/geomsvg.py:svg_element_to_geometry", "tcnc/geom/arc.py:Arc.transform", "tcnc/cam/simplecam.py:SimpleCAM.generate_segment_gcode")
p("Curves of a drawing are cut as tangent arcs",
  "For a drawing of lines, arcs and Bezier curves the program cuts the paths of the drawing in their order, lines and arcs as they are and every curve as consecutive chords and pairs of tangent arcs that follow it from its start to its end within the tolerances of the settings; it fails only if the replacement of a curve raises an exception.",
  "every document with a size and units, every selection and setting that leaves the paths alone, all shapes of lines, arcs and curves and their transforms", "Ranges over all drawings, curves and tolerances, from the text of the attributes to the blocks of the program.",
  "tcnc/tcnc.py:Tcnc.run", "tcnc/cam/simplecam.py:SimpleCAM.path_biarc_approximation", "tcnc/geom/bezier.py:CubicBezier.biarc_approximation")
p("Fillets between lines and arcs touch both",
  "The fillet between a line and an arc (in either order), or between two arcs, is an arc of the radius asked for that touches both on the side to which the path turns, from a point of the first to a point of the second; if such a fillet fits between a line and an arc it is found, the path is smooth at its ends, and connecting the fillet leaves the rest of the arcs as they were.",
  "every line, every arc on its circle, every pair of arcs, every radius of at least the tolerance", "Ranges over all lines and arcs; the corners of real drawings have irrational tangent points.",
  "tcnc/geom/fillet.py:create_fillet_arc", "tcnc/geom/fillet.py:fillet_line_arc", "tcnc/geom/fillet.py:fillet_arc_arc", "tcnc/geom/fillet.py:connect_fillet", "tcnc/cam/fillet.py:fillet_path")
p("Offset polygons have their sides moved by the offset",
  "Offsetting a polygon moves each of its sides by the offset and joins the moved sides at the corners as the join type says: squared off at the offset from the vertex, mitered where the sides meet unless that is beyond the limit, or rounded; where the polygon turns away it is cut back to the vertex. No vertex of the result is further from the polygon than the corners reach.",
  "every polygon, offset, join type and limit", "Ranges over all polygons with any number of vertices and all real offsets; the corners are irrational.",
  "tcnc/geom/polygon.py:offset_polygons", "tcnc/contrib/clipper.py:OffsetPolygons", "tcnc/polypath.py:PolyPath._offset_polys")
p("Drawing of grid lines",
  "The grid extension never fails when it draws its paths: each path is drawn once, by one element with the style of its lines, horizontal paths before vertical ones or by turns, on one layer or on one layer for each direction as asked for; what is drawn goes without gaps from the start of the path to its end and has a line for each line of the path. Without fillets these are exactly its lines; with fillets, where there is room for them at the corners, the way drawn is smooth and made of parts of the lines and arcs of the radius asked for. Lines drawn by turns get no fillets.",
  "all lists of lines, every order, direction, connection, layer and fillet option, every radius", "Ranges over all lists of lines and all radii; tests draw a few grids.",
  "tcnc/lines.py:Lines.run", "tcnc/lines.py:Lines.render_lines", "tcnc/geom/fillet.py:fillet_path")
p("Simplification of polylines by areas",
  "Simplifying a polyline by the areas of its triangles returns a polyline: some of the points, in order, with the first and the last among them.",
  "every list of points and every tolerance", "Ranges over all lists of points and all tolerances.",
  "tcnc/geom/polygon.py:simplify_polyline_vw")
p("Tangents and normals of curves",
  "The tangent of a Bezier curve at t is the unit vector in the direction in which the curve moves at t (at an end with its handle on the end point, the limit of the directions towards that end), the normal is that vector turned a quarter turn to the left, and the tangent angles of the ends are the angles of the tangents there.",
  "every Bezier curve, parameter and tolerance", "Ranges over all curves and all real parameters; directions are irrational.",
  "tcnc/geom/bezier.py:CubicBezier.tangent", "tcnc/geom/bezier.py:CubicBezier.normal", "tcnc/geom/bezier.py:CubicBezier.start_tangent_angle", "tcnc/geom/bezier.py:CubicBezier.end_tangent_angle")
p("Quasicrystal drawings: layers and info",
  "The quasicrystal extension draws everything that was asked for, once, and nothing else, always in the same order from the bottom up, each drawing in layers of its own with different names; the info layer, the margins and the frame replace those of an earlier run, all other layers are added. Segments are drawn only if there is a kind of segment for some tiles, a frame only with a size. The info layer shows the settings of the run, the rotation in degrees as it was given.",
  "all settings of the extension, any number of colours and kinds of boxes", "Ranges over all combinations of some twenty options; tests run a few.",
  "tcnc/quasink.py:QuasiExtension.run", "tcnc/quasink.py:QuasiExtension._draw_info_layer")
