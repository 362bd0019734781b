#!/usr/bin/env python3
"""Source of /verif/properties.jsonl (run: python3 tools/props.py)."""
import json, os
P = []
def p(title, statement, quantifier, why, *anchors):
    P.append(dict(id="C%02d" % (len(P)+1), title=title, statement=statement,
                  quantifier=quantifier, why_tests_cant=why, anchors=list(anchors)))
G = "tcnc/cam/gcode.py:"
S = "tcnc/cam/simplecam.py:"
hist = "every finite sequence of generator calls, every argument value"
whyh = "Unit tests replay a handful of call sequences; the claim is an invariant over all histories."
# ---------------- G-code generator
p("Tracked position equals machine position",
  "After any sequence of generator calls, a controller that executes the emitted program is, on each of X, Y, Z and A, at exactly the reported position(axis) mapped through that axis' scale, soft offset and unit scale (degrees for A).",
  hist + ", every fixed configuration of scales/offsets/tolerances", whyh,
  G+"GCodeGenerator.gcode_command", G+"GCodeGenerator.position", G+"GCodeGenerator.rapid_move", G+"GCodeGenerator.feed", G+"GCodeGenerator.feed_arc")
p("No drift under modal suppression",
  "Suppressing unchanged words never accumulates error: after any sequence of motion requests the reported coordinate of an axis is within the tolerance of the last coordinate requested for that axis.",
  hist, whyh, G+"GCodeGenerator.gcode_command", G+"GCodeGenerator.set_tolerance")
p("Rapid moves happen at a safe height",
  "Whatever calls preceded it, rapid_move traverses X/Y only while the machine Z is at or above the safe height, both when the traverse starts and when it ends.",
  hist + ", every target point", whyh + " A single unsafe history crashes the tool.",
  G+"GCodeGenerator.rapid_move", G+"GCodeGenerator.tool_up", G+"GCodeGenerator.tool_down")
p("tool_up always commands the safe height",
  "From any internal state tool_up (without an alternate command) emits a Z word for the safe height, even if the generator believes the tool is already up, and afterwards position('Z') is the safe height.",
  "every generator state", "The safety comment in the code is about all states, including ones a test would not construct.",
  G+"GCodeGenerator.tool_up")
p("Repeating a move emits nothing",
  "Issuing the same motion command with the same arguments twice in a row emits no second line and leaves the generator state unchanged.",
  "every generator state, motion command and argument tuple without forced words", "Quantifies over all states and float arguments.",
  G+"GCodeGenerator.gcode_command")
p("Feed rate actually in force",
  "Every feed line (G01/G02/G03) is executed by the controller at the feed rate the caller requested (within the tolerance).",
  hist, "A wrong modal feed only shows up after particular earlier histories.",
  G+"GCodeGenerator.gcode_command", G+"GCodeGenerator.feed", G+"GCodeGenerator.feed_rate")
p("Canonical word order, no duplicate words",
  "Each emitted command line lists its parameter words in the fixed order XYZUVWABCIJKRDHLPQSF with no letter twice (before axis renaming).",
  "every command and argument set", "All subsets of parameters and all states determine which words survive.",
  G+"GCodeGenerator.gcode_command", G+"GCodeGenerator._GCODE_ORDERED_PARAMS")
p("Line numbers are consecutive",
  "With line numbering on, the emitted command lines are numbered 0, 1, 2, ... without gaps or repeats, and blank or comment-only lines are never numbered.",
  hist, whyh, G+"GCodeGenerator._write_line", G+"GCodeGenerator._write_comment")
p("Opaque motion is refused",
  "A motion command (G00..G03, in any spelling) given an opaque parameter string raises GCodeException and neither the output nor the tracked state changes.",
  "every state, spelling and parameter string", "All spellings and states.",
  G+"GCodeGenerator.gcode_command", G+"_canonical_cmd")
p("Comments never change what the machine does",
  "For any call sequence the machine commands in the output are the same whether comments are shown or not, and whatever the comment texts are.",
  hist + ", every comment text", "Comment text is arbitrary user text; tests use benign strings.",
  G+"GCodeGenerator.comment", G+"GCodeGenerator._write_line", G+"GCodeGenerator._write_comment")
p("Dwell time",
  "dwell(ms) emits exactly one G04 whose P word is ms/1000 seconds when ms > 0 and emits nothing otherwise; it never moves an axis.",
  "every duration and state", "All durations and states.", G+"GCodeGenerator.dwell")
p("Automatic spindle brackets the cut",
  "With spindle_auto on, after tool_down the spindle has been commanded on before the plunge, after tool_up it is commanded off after the retract, and in every history made of moves, tool_up and tool_down the commanded spindle state is 'on' exactly when the last of tool_down, tool_up and a retracting rapid_move (one issued below the safe height or at unknown height) was tool_down.",
  hist, whyh, G+"GCodeGenerator.tool_up", G+"GCodeGenerator.tool_down", G+"GCodeGenerator.spindle_on", G+"GCodeGenerator.spindle_off")
p("Arc feeds with mismatched radii are refused",
  "feed_arc raises GCodeException whenever the requested end point does not lie on the circle through the current position with the given centre, so every emitted arc ends on its own circle.",
  "every current position, centre offset and end point", "All real coordinates.",
  G+"GCodeGenerator.feed_arc")
p("feed_rate emits F exactly on change",
  "feed_rate(f) emits an F line iff f differs from the last feed rate by at least the tolerance, and never raises.",
  "every state and rate", "Depends on earlier history.", G+"GCodeGenerator.feed_rate", G+"GCodeGenerator.float_eq")
p("Rotary axis normalisation",
  "normalize_axis_angle leaves a rotary axis at an angle in [0, 2*pi) congruent to the old one modulo 2*pi whenever the old magnitude exceeds 2*pi, and does nothing otherwise.",
  "every angle", "All real angles.", G+"GCodeGenerator.normalize_axis_angle")
p("Numeric text accuracy",
  "Every number written has a bounded number of decimals (2 to 15 whatever precision is requested) and the decimal text denotes a value within half a unit of the last digit of the exact value.",
  "every value and requested precision", "All values and precisions.",
  G+"GCodeGenerator.set_output_precision", G+"GCodeGenerator.gcode_command")
p("Only inches or millimetres",
  "The output unit is always 'in' or 'mm': setting anything else raises GCodeException and changes nothing; the header declares G20 exactly for 'in' and G21 exactly for 'mm'.",
  hist + ", every unit string", whyh, G+"GCodeGenerator.set_units", G+"GCodeGenerator.units", G+"GCodeGenerator.header")
p("Axis renaming only renames",
  "map_axis changes only the letters of emitted words: with any mapping the program is the unmapped program with those letters substituted, and position tracking is unaffected.",
  hist + ", every mapping", whyh, G+"GCodeGenerator.map_axis", G+"GCodeGenerator.gcode_command")
p("Wrapped angles stay below one turn",
  "With wrap_angles on (and no A scale/offset) every A word emitted by a motion call has magnitude below 360 degrees and is congruent to the requested angle.",
  "every angle and state", "All real angles.", G+"GCodeGenerator.gcode_command")
p("Program framing",
  "header() starts the program with a percent line and selects plane, unit, absolute mode and compensation-off before any motion; footer() ends it with M2 followed by a percent line, cancelling axis offsets first if a rotary axis was renormalised.",
  "every configuration and state", "All configurations.", G+"GCodeGenerator.header", G+"GCodeGenerator.footer")
p("Arc from an unknown position is an error",
  "feed_arc before X or Y has ever been commanded raises and emits nothing.",
  "every state with unknown X or Y, every argument", "All states.", G+"GCodeGenerator.feed_arc", G+"GCodeGenerator.get_current_position_xy")
# ---------------- CAM
p("Code generation terminates",
  "generate_gcode's depth-pass loop finishes for every z_depth and z_step a user can set.",
  "every real z_depth, z_step", "Non-termination cannot be observed by a finite test, and the parameter space is continuous.",
  S+"SimpleCAM.generate_gcode", "tcnc/tcnc.py:Tcnc._init_cam")
p("Never below the final depth",
  "No cutting pass is made at a depth below z_depth.",
  "every z_depth and z_step, every number of passes", "All real parameters, unbounded passes.", S+"SimpleCAM.generate_gcode")
p("The final depth is reached",
  "The last cutting pass is at exactly z_depth.",
  "every z_depth and z_step", "Only fails when z_depth is not a multiple of z_step.", S+"SimpleCAM.generate_gcode")
p("Step size bound",
  "Consecutive passes differ by at most |z_step|, the first pass removes at most |z_step|, and passes get strictly deeper.",
  "every negative z_depth and z_step", "All real parameters.", S+"SimpleCAM.generate_gcode")
p("Every path is cut once per pass, in order",
  "In each depth pass the non-empty paths whose index is at least path_count_start are each cut exactly once, in list order, and no other path is.",
  "every path list, start index and pass", "All lists.", S+"SimpleCAM.generate_gcode")
p("Directional sorts are sorting",
  "sort_paths with 'x+', 'x-', 'y+', 'y-' returns a permutation of the input ordered by the start point of each path in the stated axis order (descending for '-'), with equal keys kept in input order.",
  "every list of non-empty paths", "All lists.", S+"SimpleCAM.sort_paths")
p("'flip' keeps the order of paths",
  "sort_paths('flip') keeps the path order; each path is either unchanged or reversed (segment order and direction), and it is reversed exactly when its far end is strictly closer to the previous end point.",
  "every non-empty list of non-empty paths", "All lists.", S+"SimpleCAM._flip_paths", S+"SimpleCAM._path_reversed")
p("'optimize' sort loses no path",
  "sort_paths('optimize') returns every input path exactly once (possibly reversed).",
  "every list of paths", "All lists and geometries.", S+"SimpleCAM._sort_segment_paths_1")
p("Splitting at cusps",
  "split_path_g1 returns non-empty pieces whose concatenation is the input path; inside a piece every junction is tangent-continuous and unmarked, and every boundary between pieces is a junction that is not.",
  "every non-empty path", "All paths.", "tcnc/cam/util.py:split_path_g1")
p("Tool paths contain only lines and arcs",
  "path_biarc_approximation returns only Line and Arc segments, keeps every Line and Arc in order, replaces each Bezier by its biarcs in place, and raises for anything else.",
  "every path", "All paths.", S+"SimpleCAM.path_biarc_approximation", "tcnc/cam/toolpath.py:Toolpath.biarc_approximation")
p("Shortest rotation",
  "calc_rotation(a, b) is in [-pi, pi], and a + calc_rotation(a, b) is congruent to b modulo 2*pi (up to EPSILON when the angles already agree to EPSILON).",
  "every pair of real angles", "All real angles.", "tcnc/geom/util.py:calc_rotation")
p("Angle normalisation",
  "normalize_angle(a, c) is congruent to a modulo 2*pi, lies in [c - pi, c + pi), and is idempotent.",
  "every real angle and centre", "All real angles.", "tcnc/geom/util.py:normalize_angle")
p("The tangential axis follows the path",
  "After each segment (tangent mode) the A axis command is congruent to the segment's end tangent within EPSILON and never turned by more than pi to reach the start tangent nor by more than pi along the segment; errors do not accumulate over the path.",
  "every path, every number of segments", "Accumulation over unbounded paths.", S+"SimpleCAM.generate_segment_gcode", S+"SimpleCAM.generate_rapid_move")
p("Travel accounting",
  "feed_distance after a run equals its initial value plus the sum of the lengths of all segments generated.",
  "every sequence of segments", "All sequences.", S+"SimpleCAM.generate_segment_gcode")
p("Brush landing and overshoot extend the stroke",
  "process_brush_path only prepends/appends straight segments: the original stroke is kept, the result is connected, landing segments point along the start tangent and overshoot segments along the end tangent with the configured lengths.",
  "every path and brush configuration", "All configurations.", "tcnc/cam/paintcam.py:PaintCAM.process_brush_path")
p("Brush reload",
  "With brush reload enabled, code generation completes and a reload (pause or dwell) is emitted every brush_reload_max_paths paths.",
  "every path list and reload configuration", "All configurations.", "tcnc/cam/paintcam.py:PaintCAM.generate_rapid_move")
p("Offsetting keeps the path connected",
  "offset_path returns a connected path (each segment starts where the previous one ends) for every path, in the order of the input segments.",
  "every path of lines and arcs", "All paths.", "tcnc/cam/offset.py:offset_path")
p("Filleting keeps the path connected",
  "fillet_path keeps an open path's first start point and last end point, inserts fillets only between adjacent segments, and leaves a connected path connected; if no fillet fits the original path is returned.",
  "every path and radius", "All paths.", "tcnc/cam/fillet.py:fillet_path", "tcnc/geom/fillet.py:connect_fillet")
p("Trail offset of an arc is concentric",
  "offset_arc keeps the centre and sweep of the arc, and when the arc's end points lie on its circle the new end points lie on the circle of the new radius.",
  "every arc with end points on its circle, every offset", "All real parameters.", "tcnc/cam/offset.py:offset_arc")
# ---------------- geom
T="tcnc/geom/transform2d.py:"
p("Transform composition",
  "compose_transform(m1, m2) applied to a point equals m1 applied to m2 applied to the point; composition is associative with the identity matrix as unit.",
  "every pair/triple of matrices and point", "All real matrices.", T+"compose_transform", T+"matrix_apply_to_point")
p("Rotation is an isometry about its origin",
  "matrix_rotate(angle, origin) fixes the origin, preserves all distances, and rotations about one origin compose by adding angles.",
  "every angle, origin, pair of points", "All real values.", T+"matrix_rotate", "tcnc/geom/point.py:P.rotate")
p("Scaling about an origin",
  "matrix_scale(sx, sy, origin) fixes the origin and scales offsets from it by sx and sy.",
  "every factor, origin and point", "All real values.", T+"matrix_scale")
p("Point equality is an equivalence",
  "Approximate point equality is reflexive, symmetric and transitive.",
  "every triple of points", "Transitivity fails only near the tolerance.", "tcnc/geom/point.py:P.__eq__", "tcnc/geom/point.py:P.almost_equal")
p("Equal points hash equally",
  "Two points that compare equal have the same hash, so they are the same key in sets and dictionaries.",
  "every pair of points", "Fails only at rounding boundaries.", "tcnc/geom/point.py:P.__hash__", "tcnc/geom/point.py:P.__eq__")
p("Segment equality ignores direction",
  "A Line compares equal to its reverse and hashes identically; reversal is an involution.",
  "every segment", "All segments.", "tcnc/geom/line.py:Line.__eq__", "tcnc/geom/line.py:Line.__hash__", "tcnc/geom/line.py:Line.reversed")
p("Boxes are normalised",
  "A Box built from any two corners has min <= max on both axes, does not depend on the order of the corners, and contains both.",
  "every pair of points", "All points.", "tcnc/geom/box.py:Box.__new__")
p("Box intersection and union",
  "A point is in the intersection of two boxes iff it is in both; None is returned iff they have no common point; the union is the least box containing both; both operations are commutative and associative.",
  "every pair/triple of boxes and point", "All boxes.", "tcnc/geom/box.py:Box.intersection", "tcnc/geom/box.py:Box.union")
p("Line clipping",
  "clip_line returns exactly the part of the segment inside the box (None iff there is none), as a sub-segment with the same direction, whenever the segment's extent along each axis is zero or at least EPSILON; otherwise every point of the result is within EPSILON of the box.",
  "every box and segment", "All real coordinates; degenerate directions.", "tcnc/geom/box.py:Box.clip_line", "tcnc/geom/box.py:Box._clipT")
p("Bounding boxes bound",
  "The bounding box of a non-empty point collection contains every point and touches the collection on all four sides (Box.from_points, polygon.bounding_box).",
  "every non-empty list of points", "All lists, including all-negative coordinates.", "tcnc/geom/box.py:Box.from_points", "tcnc/geom/polygon.py:bounding_box")
p("Polygon area",
  "area is invariant under translation and under choice of first vertex, changes sign under reversal, and is negative for clockwise vertex order.",
  "every vertex list", "All polygons.", "tcnc/geom/polygon.py:area")
p("Polygon centroid",
  "centroid moves with the polygon under translation and does not depend on the first vertex or the winding direction.",
  "every vertex list with non-zero area", "All polygons.", "tcnc/geom/polygon.py:centroid")
p("Point in polygon",
  "point_inside does not depend on the first vertex or winding, is invariant under translation, and is False for every point outside the bounding box.",
  "every vertex list and point", "All polygons.", "tcnc/geom/polygon.py:point_inside")
p("Polyline simplification",
  "simplify_polyline_rdp terminates, keeps both end points, returns a subsequence of the input vertices, and every dropped vertex, and every point of the polyline between the vertices, is within the tolerance of a segment of the result.",
  "every polyline and non-negative tolerance", "All polylines.", "tcnc/geom/polygon.py:simplify_polyline_rdp")
p("Line intersection",
  "intersection returns a point on both lines (on both segments, up to EPSILON in parameter, when segment is set), and None only for near-parallel lines or when the crossing is outside the segments.",
  "every pair of lines", "All real coordinates.", "tcnc/geom/line.py:Line.intersection", "tcnc/geom/line.py:Line.intersection_mu")
p("Same side test",
  "same_side(p, q) is True iff both points are on the same (closed left or open right) side of the line, and it is symmetric.",
  "every line and pair of points", "All real coordinates.", "tcnc/geom/line.py:Line.same_side")
p("Projection is the nearest point",
  "normal_projection_point with segment=True returns the point of the segment closest to p, so distance_to_point is the true distance to the segment (exactly for single points and segments at least EPSILON long, within EPSILON for shorter ones).",
  "every segment and point", "All real coordinates.", "tcnc/geom/line.py:Line.normal_projection_point", "tcnc/geom/line.py:Line.distance_to_point")
p("Line editing operations",
  "extend, shift, offset, subdivide, flipped: shift and offset preserve length and direction, extend adds exactly the amount to the length, subdivide's two parts join and their lengths add up.",
  "every non-degenerate segment and amount", "All real values.", "tcnc/geom/line.py:Line.extend", "tcnc/geom/line.py:Line.shift", "tcnc/geom/line.py:Line.offset", "tcnc/geom/line.py:Line.subdivide")
p("Arc centre",
  "calc_center returns a point at distance radius from both end points whenever the radius is at least half the chord, on the side given by the sign of the angle, and raises a domain error otherwise.",
  "every pair of points at least EPSILON apart, every radius and angle", "All real values.", "tcnc/geom/arc.py:Arc.calc_center")
p("Arc subdivision",
  "subdividing an arc at 0 < mu < 1 gives two arcs with the same centre, radius and direction that join, whose sweeps add up to the original, for both directions.",
  "every arc and mu", "All real values; both signs.", "tcnc/geom/arc.py:Arc.subdivide", "tcnc/geom/arc.py:Arc.subdivide_at_angle")
p("Arc transform",
  "Transforming an arc by a uniform scaling scales its radius by the same factor and its end points accordingly.",
  "every arc and scale", "All real values.", "tcnc/geom/arc.py:Arc.transform")
p("Points on an arc",
  "point_at(mu) lies at distance radius from the centre; mu=0 and mu=1 give the end points; reversing an arc twice is the identity.",
  "every arc with end points on its circle", "All real values.", "tcnc/geom/arc.py:Arc.point_at", "tcnc/geom/arc.py:Arc.point_at_angle", "tcnc/geom/arc.py:Arc.reversed")
p("Bezier subdivision is exact",
  "Subdividing a cubic Bezier at t gives two curves that trace exactly the original on [0,t] and [t,1] and join at the split point.",
  "every curve, every t and parameter", "All real values.", "tcnc/geom/bezier.py:CubicBezier.subdivide", "tcnc/geom/bezier.py:CubicBezier.point_at")
p("Quadratic to cubic",
  "from_quadratic produces a cubic that equals the quadratic at every parameter.",
  "every quadratic, every parameter", "All real values.", "tcnc/geom/bezier.py:CubicBezier.from_quadratic")
p("Graph adjacency is symmetric",
  "After any sequence of add_edge/remove_edge a node lists a neighbour iff the edge is in the edge set, the relation is symmetric, no edge is degenerate or duplicated, order() and size() count nodes and edges and the degrees sum to twice the size.",
  "every sequence of edge insertions and removals", whyh, "tcnc/geom/planargraph.py:Graph.add_edge", "tcnc/geom/planargraph.py:Graph.remove_edge")
p("Culling open edges",
  "cull_open_edges terminates, leaves no node of degree one, and the result is the largest such subgraph, independent of set iteration order.",
  "every graph", "All graphs and iteration orders.", "tcnc/geom/planargraph.py:Graph.cull_open_edges")
p("Paths cover the graph",
  "build_paths terminates and returns paths along graph edges that use every edge exactly once, for every strategy and every random choice.",
  "every graph, strategy and sequence of random choices", "All random choices.", "tcnc/geom/planargraph.py:GraphPathBuilder.build_paths")
# ---------------- SVG
V="tcnc/svg/svg.py:"
p("Path parsing is total",
  "parse_path never raises on any text; every yielded command is M, L, C, Q or A with exactly 2, 2, 6, 4 or 7 parameters, and the first is M.",
  "every string", "All strings.", V+"parse_path", V+"path_tokenizer")
p("Relative commands mean the same as absolute ones",
  "A path written with relative commands yields the same segments as the path written with the corresponding absolute coordinates.",
  "every path", "All paths.", V+"parse_path")
p("Smooth shorthand",
  "S and T use the reflection of the previous curve's control point about the current point, or the current point itself if the previous command was not a curve of the same kind (SVG 1.1 sections 8.3.6, 8.3.7).",
  "every path", "Depends on the preceding command.", V+"parse_path")
p("Closing a subpath",
  "Z yields a line back to the most recent M point, and drawing continues from there.",
  "every path", "All paths.", V+"parse_path")
p("Path text round trip",
  "Rendering canonical absolute commands as text and parsing the text gives back the same commands.",
  "every list of canonical commands", "All lists.", V+"parse_path", V+"path_tokenizer")
K="tcnc/svg/css.py:"
p("Colour round trip",
  "Formatting an RGB triple as #rrggbb and parsing it returns the triple; parsing any colour text gives channels in 0..255; a colour conversion always returns #rrggbb.",
  "every triple and every string", "All strings.", K+"csscolor_to_rgb", K+"csshex_to_rgb", K+"csscolor_to_cssrgb", K+"parse_channel_value")
p("Inline style round trip",
  "Formatting a style dictionary and parsing it back returns the dictionary, for names and values that contain no ';' and are trimmed.",
  "every style dictionary", "All dictionaries.", K+"inline_style_to_dict", K+"dict_to_inline_style")
p("Unit conversion",
  "unit2uu and uu2unit are inverse to each other for every unit, and conversion factors are multiplicative.",
  "every value and unit", "All values.", V+"SVGContext.unit2uu", V+"SVGContext.uu2unit", V+"SVGContext.unit_convert")
p("Visibility",
  "node_is_visible is False iff the node or some ancestor is display:none or hidden/collapsed (with check_parent).",
  "every element tree", "All trees.", V+"SVGContext.node_is_visible")
p("Transform lists",
  "The matrix of a transform list maps points as applying the listed transforms from right to left, and nested element transforms compose outermost first.",
  "every list of transforms, every nesting depth", "All lists and depths.", V+"SVGContext.parse_transform_attr", V+"SVGContext.get_parent_transform")
p("SVG shapes become closed geometry",
  "rect, circle, polyline, polygon and line elements convert to connected segment lists (closed for rect, circle and polygon) without raising.",
  "every shape element with numeric attributes", "All shapes.", "tcnc/svg/geomsvg.py:convert_rect", "tcnc/svg/geomsvg.py:convert_circle", "tcnc/svg/geomsvg.py:convert_polygon", "tcnc/svg/geomsvg.py:convert_line", "tcnc/svg/geomsvg.py:svg_element_to_geometry")
p("Output files are never overwritten",
  "With append_suffix the returned path names a file that does not exist yet, whatever is in the directory and in whatever order it is listed.",
  "every directory content and listing order", "Listing order is up to the OS.", "tcnc/cam/output.py:create_pathname")
exec(open(os.path.join(os.path.dirname(__file__), "props_more.py")).read()) if os.path.exists(os.path.join(os.path.dirname(__file__), "props_more.py")) else None
with open(os.path.join(os.path.dirname(__file__), "..", "properties.jsonl"), "w") as f:
    for x in P: f.write(json.dumps(x) + "\n")
print(len(P))
