{"id": "C01", "title": "Tracked position equals machine position", "statement": "After any sequence of generator calls, a controller that executes the emitted program is, on each of X, Y, Z and A, at exactly the reported position(axis) mapped through that axis' scale, soft offset and unit scale (degrees for A).", "quantifier": "every finite sequence of generator calls, every argument value, every fixed configuration of scales/offsets/tolerances", "why_tests_cant": "Unit tests replay a handful of call sequences; the claim is an invariant over all histories.", "anchors": ["tcnc/cam/gcode.py:GCodeGenerator.gcode_command", "tcnc/cam/gcode.py:GCodeGenerator.position", "tcnc/cam/gcode.py:GCodeGenerator.rapid_move", "tcnc/cam/gcode.py:GCodeGenerator.feed", "tcnc/cam/gcode.py:GCodeGenerator.feed_arc"]}
{"id": "C02", "title": "No drift under modal suppression", "statement": "Suppressing unchanged words never accumulates error: after any sequence of motion requests the reported coordinate of an axis is within the tolerance of the last coordinate requested for that axis.", "quantifier": "every finite sequence of generator calls, every argument value", "why_tests_cant": "Unit tests replay a handful of call sequences; the claim is an invariant over all histories.", "anchors": ["tcnc/cam/gcode.py:GCodeGenerator.gcode_command", "tcnc/cam/gcode.py:GCodeGenerator.set_tolerance"]}
{"id": "C03", "title": "Rapid moves happen at a safe height", "statement": "Whatever calls preceded it, rapid_move traverses X/Y only while the machine Z is at or above the safe height, both when the traverse starts and when it ends.", "quantifier": "every finite sequence of generator calls, every argument value, every target point", "why_tests_cant": "Unit tests replay a handful of call sequences; the claim is an invariant over all histories. A single unsafe history crashes the tool.", "anchors": ["tcnc/cam/gcode.py:GCodeGenerator.rapid_move", "tcnc/cam/gcode.py:GCodeGenerator.tool_up", "tcnc/cam/gcode.py:GCodeGenerator.tool_down"]}
{"id": "C04", "title": "tool_up always commands the safe height", "statement": "From any internal state tool_up (without an alternate command) emits a Z word for the safe height, even if the generator believes the tool is already up, and afterwards position('Z') is the safe height.", "quantifier": "every generator state", "why_tests_cant": "The safety comment in the code is about all states, including ones a test would not construct.", "anchors": ["tcnc/cam/gcode.py:GCodeGenerator.tool_up"]}
{"id": "C05", "title": "Repeating a move emits nothing", "statement": "Issuing the same motion command with the same arguments twice in a row emits no second line and leaves the generator state unchanged.", "quantifier": "every generator state, motion command and argument tuple without forced words", "why_tests_cant": "Quantifies over all states and float arguments.", "anchors": ["tcnc/cam/gcode.py:GCodeGenerator.gcode_command"]}
{"id": "C06", "title": "Feed rate actually in force", "statement": "Every feed line (G01/G02/G03) is executed by the controller at the feed rate the caller requested (within the tolerance).", "quantifier": "every finite sequence of generator calls, every argument value", "why_tests_cant": "A wrong modal feed only shows up after particular earlier histories.", "anchors": ["tcnc/cam/gcode.py:GCodeGenerator.gcode_command", "tcnc/cam/gcode.py:GCodeGenerator.feed", "tcnc/cam/gcode.py:GCodeGenerator.feed_rate"]}
{"id": "C07", "title": "Canonical word order, no duplicate words", "statement": "Each emitted command line lists its parameter words in the fixed order XYZUVWABCIJKRDHLPQSF with no letter twice (before axis renaming).", "quantifier": "every command and argument set", "why_tests_cant": "All subsets of parameters and all states determine which words survive.", "anchors": ["tcnc/cam/gcode.py:GCodeGenerator.gcode_command", "tcnc/cam/gcode.py:GCodeGenerator._GCODE_ORDERED_PARAMS"]}
{"id": "C08", "title": "Line numbers are consecutive", "statement": "With line numbering on, the emitted command lines are numbered 0, 1, 2, ... without gaps or repeats, and blank or comment-only lines are never numbered.", "quantifier": "every finite sequence of generator calls, every argument value", "why_tests_cant": "Unit tests replay a handful of call sequences; the claim is an invariant over all histories.", "anchors": ["tcnc/cam/gcode.py:GCodeGenerator._write_line", "tcnc/cam/gcode.py:GCodeGenerator._write_comment"]}
{"id": "C09", "title": "Opaque motion is refused", "statement": "A motion command (G00..G03, in any spelling) given an opaque parameter string raises GCodeException and neither the output nor the tracked state changes.", "quantifier": "every state, spelling and parameter string", "why_tests_cant": "All spellings and states.", "anchors": ["tcnc/cam/gcode.py:GCodeGenerator.gcode_command", "tcnc/cam/gcode.py:_canonical_cmd"]}
{"id": "C10", "title": "Comments never change what the machine does", "statement": "For any call sequence the machine commands in the output are the same whether comments are shown or not, and whatever the comment texts are.", "quantifier": "every finite sequence of generator calls, every argument value, every comment text", "why_tests_cant": "Comment text is arbitrary user text; tests use benign strings.", "anchors": ["tcnc/cam/gcode.py:GCodeGenerator.comment", "tcnc/cam/gcode.py:GCodeGenerator._write_line", "tcnc/cam/gcode.py:GCodeGenerator._write_comment"]}
{"id": "C11", "title": "Dwell time", "statement": "dwell(ms) emits exactly one G04 whose P word is ms/1000 seconds when ms > 0 and emits nothing otherwise; it never moves an axis.", "quantifier": "every duration and state", "why_tests_cant": "All durations and states.", "anchors": ["tcnc/cam/gcode.py:GCodeGenerator.dwell"]}
{"id": "C12", "title": "Automatic spindle brackets the cut", "statement": "With spindle_auto on, after tool_down the spindle has been commanded on before the plunge, after tool_up it is commanded off after the retract, and in every history made of moves, tool_up and tool_down the commanded spindle state is 'on' exactly when the last of tool_down, tool_up and a retracting rapid_move (one issued below the safe height or at unknown height) was tool_down.", "quantifier": "every finite sequence of generator calls, every argument value", "why_tests_cant": "Unit tests replay a handful of call sequences; the claim is an invariant over all histories.", "anchors": ["tcnc/cam/gcode.py:GCodeGenerator.tool_up", "tcnc/cam/gcode.py:GCodeGenerator.tool_down", "tcnc/cam/gcode.py:GCodeGenerator.spindle_on", "tcnc/cam/gcode.py:GCodeGenerator.spindle_off"]}
{"id": "C13", "title": "Arc feeds with mismatched radii are refused", "statement": "feed_arc raises GCodeException whenever the requested end point does not lie on the circle through the current position with the given centre, so every emitted arc ends on its own circle.", "quantifier": "every current position, centre offset and end point", "why_tests_cant": "All real coordinates.", "anchors": ["tcnc/cam/gcode.py:GCodeGenerator.feed_arc"]}
{"id": "C14", "title": "feed_rate emits F exactly on change", "statement": "feed_rate(f) emits an F line iff f differs from the last feed rate by at least the tolerance, and never raises.", "quantifier": "every state and rate", "why_tests_cant": "Depends on earlier history.", "anchors": ["tcnc/cam/gcode.py:GCodeGenerator.feed_rate", "tcnc/cam/gcode.py:GCodeGenerator.float_eq"]}
{"id": "C15", "title": "Rotary axis normalisation", "statement": "normalize_axis_angle leaves a rotary axis at an angle in [0, 2*pi) congruent to the old one modulo 2*pi whenever the old magnitude exceeds 2*pi, and does nothing otherwise.", "quantifier": "every angle", "why_tests_cant": "All real angles.", "anchors": ["tcnc/cam/gcode.py:GCodeGenerator.normalize_axis_angle"]}
{"id": "C16", "title": "Numeric text accuracy", "statement": "Every number written has a bounded number of decimals (2 to 15 whatever precision is requested) and the decimal text denotes a value within half a unit of the last digit of the exact value.", "quantifier": "every value and requested precision", "why_tests_cant": "All values and precisions.", "anchors": ["tcnc/cam/gcode.py:GCodeGenerator.set_output_precision", "tcnc/cam/gcode.py:GCodeGenerator.gcode_command"]}
{"id": "C17", "title": "Only inches or millimetres", "statement": "The output unit is always 'in' or 'mm': setting anything else raises GCodeException and changes nothing; the header declares G20 exactly for 'in' and G21 exactly for 'mm'.", "quantifier": "every finite sequence of generator calls, every argument value, every unit string", "why_tests_cant": "Unit tests replay a handful of call sequences; the claim is an invariant over all histories.", "anchors": ["tcnc/cam/gcode.py:GCodeGenerator.set_units", "tcnc/cam/gcode.py:GCodeGenerator.units", "tcnc/cam/gcode.py:GCodeGenerator.header"]}
{"id": "C18", "title": "Axis renaming only renames", "statement": "map_axis changes only the letters of emitted words: with any mapping the program is the unmapped program with those letters substituted, and position tracking is unaffected.", "quantifier": "every finite sequence of generator calls, every argument value, every mapping", "why_tests_cant": "Unit tests replay a handful of call sequences; the claim is an invariant over all histories.", "anchors": ["tcnc/cam/gcode.py:GCodeGenerator.map_axis", "tcnc/cam/gcode.py:GCodeGenerator.gcode_command"]}
{"id": "C19", "title": "Wrapped angles stay below one turn", "statement": "With wrap_angles on (and no A scale/offset) every A word emitted by a motion call has magnitude below 360 degrees and is congruent to the requested angle.", "quantifier": "every angle and state", "why_tests_cant": "All real angles.", "anchors": ["tcnc/cam/gcode.py:GCodeGenerator.gcode_command"]}
{"id": "C20", "title": "Program framing", "statement": "header() starts the program with a percent line and selects plane, unit, absolute mode and compensation-off before any motion; footer() ends it with M2 followed by a percent line, cancelling axis offsets first if a rotary axis was renormalised.", "quantifier": "every configuration and state", "why_tests_cant": "All configurations.", "anchors": ["tcnc/cam/gcode.py:GCodeGenerator.header", "tcnc/cam/gcode.py:GCodeGenerator.footer"]}
{"id": "C21", "title": "Arc from an unknown position is an error", "statement": "feed_arc before X or Y has ever been commanded raises and emits nothing.", "quantifier": "every state with unknown X or Y, every argument", "why_tests_cant": "All states.", "anchors": ["tcnc/cam/gcode.py:GCodeGenerator.feed_arc", "tcnc/cam/gcode.py:GCodeGenerator.get_current_position_xy"]}
{"id": "C22", "title": "Code generation terminates", "statement": "generate_gcode's depth-pass loop finishes for every z_depth and z_step a user can set.", "quantifier": "every real z_depth, z_step", "why_tests_cant": "Non-termination cannot be observed by a finite test, and the parameter space is continuous.", "anchors": ["tcnc/cam/simplecam.py:SimpleCAM.generate_gcode", "tcnc/tcnc.py:Tcnc._init_cam"]}
{"id": "C23", "title": "Never below the final depth", "statement": "No cutting pass is made at a depth below z_depth.", "quantifier": "every z_depth and z_step, every number of passes", "why_tests_cant": "All real parameters, unbounded passes.", "anchors": ["tcnc/cam/simplecam.py:SimpleCAM.generate_gcode"]}
{"id": "C24", "title": "The final depth is reached", "statement": "The last cutting pass is at exactly z_depth.", "quantifier": "every z_depth and z_step", "why_tests_cant": "Only fails when z_depth is not a multiple of z_step.", "anchors": ["tcnc/cam/simplecam.py:SimpleCAM.generate_gcode"]}
{"id": "C25", "title": "Step size bound", "statement": "Consecutive passes differ by at most |z_step|, the first pass removes at most |z_step|, and passes get strictly deeper.", "quantifier": "every negative z_depth and z_step", "why_tests_cant": "All real parameters.", "anchors": ["tcnc/cam/simplecam.py:SimpleCAM.generate_gcode"]}
{"id": "C26", "title": "Every path is cut once per pass, in order", "statement": "In each depth pass the non-empty paths whose index is at least path_count_start are each cut exactly once, in list order, and no other path is.", "quantifier": "every path list, start index and pass", "why_tests_cant": "All lists.", "anchors": ["tcnc/cam/simplecam.py:SimpleCAM.generate_gcode"]}
{"id": "C27", "title": "Directional sorts are sorting", "statement": "sort_paths with 'x+', 'x-', 'y+', 'y-' returns a permutation of the input ordered by the start point of each path in the stated axis order (descending for '-'), with equal keys kept in input order.", "quantifier": "every list of non-empty paths", "why_tests_cant": "All lists.", "anchors": ["tcnc/cam/simplecam.py:SimpleCAM.sort_paths"]}
{"id": "C28", "title": "'flip' keeps the order of paths", "statement": "sort_paths('flip') keeps the path order; each path is either unchanged or reversed (segment order and direction), and it is reversed exactly when its far end is strictly closer to the previous end point.", "quantifier": "every non-empty list of non-empty paths", "why_tests_cant": "All lists.", "anchors": ["tcnc/cam/simplecam.py:SimpleCAM._flip_paths", "tcnc/cam/simplecam.py:SimpleCAM._path_reversed"]}
{"id": "C29", "title": "'optimize' sort loses no path", "statement": "sort_paths('optimize') returns every input path exactly once (possibly reversed).", "quantifier": "every list of paths", "why_tests_cant": "All lists and geometries.", "anchors": ["tcnc/cam/simplecam.py:SimpleCAM._sort_segment_paths_1"]}
{"id": "C30", "title": "Splitting at cusps", "statement": "split_path_g1 returns non-empty pieces whose concatenation is the input path; inside a piece every junction is tangent-continuous and unmarked, and every boundary between pieces is a junction that is not.", "quantifier": "every non-empty path", "why_tests_cant": "All paths.", "anchors": ["tcnc/cam/util.py:split_path_g1"]}
{"id": "C31", "title": "Tool paths contain only lines and arcs", "statement": "path_biarc_approximation returns only Line and Arc segments, keeps every Line and Arc in order, replaces each Bezier by its biarcs in place, and raises for anything else.", "quantifier": "every path", "why_tests_cant": "All paths.", "anchors": ["tcnc/cam/simplecam.py:SimpleCAM.path_biarc_approximation", "tcnc/cam/toolpath.py:Toolpath.biarc_approximation"]}
{"id": "C32", "title": "Shortest rotation", "statement": "calc_rotation(a, b) is in [-pi, pi], and a + calc_rotation(a, b) is congruent to b modulo 2*pi (up to EPSILON when the angles already agree to EPSILON).", "quantifier": "every pair of real angles", "why_tests_cant": "All real angles.", "anchors": ["tcnc/geom/util.py:calc_rotation"]}
{"id": "C33", "title": "Angle normalisation", "statement": "normalize_angle(a, c) is congruent to a modulo 2*pi, lies in [c - pi, c + pi), and is idempotent.", "quantifier": "every real angle and centre", "why_tests_cant": "All real angles.", "anchors": ["tcnc/geom/util.py:normalize_angle"]}
{"id": "C34", "title": "The tangential axis follows the path", "statement": "After each segment (tangent mode) the A axis command is congruent to the segment's end tangent within EPSILON and never turned by more than pi to reach the start tangent nor by more than pi along the segment; errors do not accumulate over the path.", "quantifier": "every path, every number of segments", "why_tests_cant": "Accumulation over unbounded paths.", "anchors": ["tcnc/cam/simplecam.py:SimpleCAM.generate_segment_gcode", "tcnc/cam/simplecam.py:SimpleCAM.generate_rapid_move"]}
{"id": "C35", "title": "Travel accounting", "statement": "feed_distance after a run equals its initial value plus the sum of the lengths of all segments generated.", "quantifier": "every sequence of segments", "why_tests_cant": "All sequences.", "anchors": ["tcnc/cam/simplecam.py:SimpleCAM.generate_segment_gcode"]}
{"id": "C36", "title": "Brush landing and overshoot extend the stroke", "statement": "process_brush_path only prepends/appends straight segments: the original stroke is kept, the result is connected, landing segments point along the start tangent and overshoot segments along the end tangent with the configured lengths.", "quantifier": "every path and brush configuration", "why_tests_cant": "All configurations.", "anchors": ["tcnc/cam/paintcam.py:PaintCAM.process_brush_path"]}
{"id": "C37", "title": "Brush reload", "statement": "With brush reload enabled, code generation completes and a reload (pause or dwell) is emitted every brush_reload_max_paths paths.", "quantifier": "every path list and reload configuration", "why_tests_cant": "All configurations.", "anchors": ["tcnc/cam/paintcam.py:PaintCAM.generate_rapid_move"]}
{"id": "C38", "title": "Offsetting keeps the path connected", "statement": "offset_path returns a connected path (each segment starts where the previous one ends) for every path, in the order of the input segments.", "quantifier": "every path of lines and arcs", "why_tests_cant": "All paths.", "anchors": ["tcnc/cam/offset.py:offset_path"]}
{"id": "C39", "title": "Filleting keeps the path connected", "statement": "fillet_path keeps an open path's first start point and last end point, inserts fillets only between adjacent segments, and leaves a connected path connected; if no fillet fits the original path is returned.", "quantifier": "every path and radius", "why_tests_cant": "All paths.", "anchors": ["tcnc/cam/fillet.py:fillet_path", "tcnc/geom/fillet.py:connect_fillet"]}
{"id": "C40", "title": "Trail offset of an arc is concentric", "statement": "offset_arc keeps the centre and sweep of the arc, and when the arc's end points lie on its circle the new end points lie on the circle of the new radius.", "quantifier": "every arc with end points on its circle, every offset", "why_tests_cant": "All real parameters.", "anchors": ["tcnc/cam/offset.py:offset_arc"]}
{"id": "C41", "title": "Transform composition", "statement": "compose_transform(m1, m2) applied to a point equals m1 applied to m2 applied to the point; composition is associative with the identity matrix as unit.", "quantifier": "every pair/triple of matrices and point", "why_tests_cant": "All real matrices.", "anchors": ["tcnc/geom/transform2d.py:compose_transform", "tcnc/geom/transform2d.py:matrix_apply_to_point"]}
{"id": "C42", "title": "Rotation is an isometry about its origin", "statement": "matrix_rotate(angle, origin) fixes the origin, preserves all distances, and rotations about one origin compose by adding angles.", "quantifier": "every angle, origin, pair of points", "why_tests_cant": "All real values.", "anchors": ["tcnc/geom/transform2d.py:matrix_rotate", "tcnc/geom/point.py:P.rotate"]}
{"id": "C43", "title": "Scaling about an origin", "statement": "matrix_scale(sx, sy, origin) fixes the origin and scales offsets from it by sx and sy.", "quantifier": "every factor, origin and point", "why_tests_cant": "All real values.", "anchors": ["tcnc/geom/transform2d.py:matrix_scale"]}
{"id": "C44", "title": "Point equality is an equivalence", "statement": "Approximate point equality is reflexive, symmetric and transitive.", "quantifier": "every triple of points", "why_tests_cant": "Transitivity fails only near the tolerance.", "anchors": ["tcnc/geom/point.py:P.__eq__", "tcnc/geom/point.py:P.almost_equal"]}
{"id": "C45", "title": "Equal points hash equally", "statement": "Two points that compare equal have the same hash, so they are the same key in sets and dictionaries.", "quantifier": "every pair of points", "why_tests_cant": "Fails only at rounding boundaries.", "anchors": ["tcnc/geom/point.py:P.__hash__", "tcnc/geom/point.py:P.__eq__"]}
{"id": "C46", "title": "Segment equality ignores direction", "statement": "A Line compares equal to its reverse and hashes identically; reversal is an involution.", "quantifier": "every segment", "why_tests_cant": "All segments.", "anchors": ["tcnc/geom/line.py:Line.__eq__", "tcnc/geom/line.py:Line.__hash__", "tcnc/geom/line.py:Line.reversed"]}
{"id": "C47", "title": "Boxes are normalised", "statement": "A Box built from any two corners has min <= max on both axes, does not depend on the order of the corners, and contains both.", "quantifier": "every pair of points", "why_tests_cant": "All points.", "anchors": ["tcnc/geom/box.py:Box.__new__"]}
{"id": "C48", "title": "Box intersection and union", "statement": "A point is in the intersection of two boxes iff it is in both; None is returned iff they have no common point; the union is the least box containing both; both operations are commutative and associative.", "quantifier": "every pair/triple of boxes and point", "why_tests_cant": "All boxes.", "anchors": ["tcnc/geom/box.py:Box.intersection", "tcnc/geom/box.py:Box.union"]}
{"id": "C49", "title": "Line clipping", "statement": "clip_line returns exactly the part of the segment inside the box (None iff there is none), as a sub-segment with the same direction, whenever the segment's extent along each axis is zero or at least EPSILON; otherwise every point of the result is within EPSILON of the box.", "quantifier": "every box and segment", "why_tests_cant": "All real coordinates; degenerate directions.", "anchors": ["tcnc/geom/box.py:Box.clip_line", "tcnc/geom/box.py:Box._clipT"]}
{"id": "C50", "title": "Bounding boxes bound", "statement": "The bounding box of a non-empty point collection contains every point and touches the collection on all four sides (Box.from_points, polygon.bounding_box).", "quantifier": "every non-empty list of points", "why_tests_cant": "All lists, including all-negative coordinates.", "anchors": ["tcnc/geom/box.py:Box.from_points", "tcnc/geom/polygon.py:bounding_box"]}
{"id": "C51", "title": "Polygon area", "statement": "area is invariant under translation and under choice of first vertex, changes sign under reversal, and is negative for clockwise vertex order.", "quantifier": "every vertex list", "why_tests_cant": "All polygons.", "anchors": ["tcnc/geom/polygon.py:area"]}
{"id": "C52", "title": "Polygon centroid", "statement": "centroid moves with the polygon under translation and does not depend on the first vertex or the winding direction.", "quantifier": "every vertex list with non-zero area", "why_tests_cant": "All polygons.", "anchors": ["tcnc/geom/polygon.py:centroid"]}
{"id": "C53", "title": "Point in polygon", "statement": "point_inside does not depend on the first vertex or winding, is invariant under translation, and is False for every point outside the bounding box.", "quantifier": "every vertex list and point", "why_tests_cant": "All polygons.", "anchors": ["tcnc/geom/polygon.py:point_inside"]}
{"id": "C54", "title": "Polyline simplification", "statement": "simplify_polyline_rdp terminates, keeps both end points, returns a subsequence of the input vertices, and every dropped vertex, and every point of the polyline between the vertices, is within the tolerance of a segment of the result.", "quantifier": "every polyline and non-negative tolerance", "why_tests_cant": "All polylines.", "anchors": ["tcnc/geom/polygon.py:simplify_polyline_rdp"]}
{"id": "C55", "title": "Line intersection", "statement": "intersection returns a point on both lines (on both segments, up to EPSILON in parameter, when segment is set), and None only for near-parallel lines or when the crossing is outside the segments.", "quantifier": "every pair of lines", "why_tests_cant": "All real coordinates.", "anchors": ["tcnc/geom/line.py:Line.intersection", "tcnc/geom/line.py:Line.intersection_mu"]}
{"id": "C56", "title": "Same side test", "statement": "same_side(p, q) is True iff both points are on the same (closed left or open right) side of the line, and it is symmetric.", "quantifier": "every line and pair of points", "why_tests_cant": "All real coordinates.", "anchors": ["tcnc/geom/line.py:Line.same_side"]}
{"id": "C57", "title": "Projection is the nearest point", "statement": "normal_projection_point with segment=True returns the point of the segment closest to p, so distance_to_point is the true distance to the segment (exactly for single points and segments at least EPSILON long, within EPSILON for shorter ones).", "quantifier": "every segment and point", "why_tests_cant": "All real coordinates.", "anchors": ["tcnc/geom/line.py:Line.normal_projection_point", "tcnc/geom/line.py:Line.distance_to_point"]}
{"id": "C58", "title": "Line editing operations", "statement": "extend, shift, offset, subdivide, flipped: shift and offset preserve length and direction, extend adds exactly the amount to the length, subdivide's two parts join and their lengths add up.", "quantifier": "every non-degenerate segment and amount", "why_tests_cant": "All real values.", "anchors": ["tcnc/geom/line.py:Line.extend", "tcnc/geom/line.py:Line.shift", "tcnc/geom/line.py:Line.offset", "tcnc/geom/line.py:Line.subdivide"]}
{"id": "C59", "title": "Arc centre", "statement": "calc_center returns a point at distance radius from both end points whenever the radius is at least half the chord, on the side given by the sign of the angle, and raises a domain error otherwise.", "quantifier": "every pair of points at least EPSILON apart, every radius and angle", "why_tests_cant": "All real values.", "anchors": ["tcnc/geom/arc.py:Arc.calc_center"]}
{"id": "C60", "title": "Arc subdivision", "statement": "subdividing an arc at 0 < mu < 1 gives two arcs with the same centre, radius and direction that join, whose sweeps add up to the original, for both directions.", "quantifier": "every arc and mu", "why_tests_cant": "All real values; both signs.", "anchors": ["tcnc/geom/arc.py:Arc.subdivide", "tcnc/geom/arc.py:Arc.subdivide_at_angle"]}
{"id": "C61", "title": "Arc transform", "statement": "Transforming an arc by a uniform scaling scales its radius by the same factor and its end points accordingly.", "quantifier": "every arc and scale", "why_tests_cant": "All real values.", "anchors": ["tcnc/geom/arc.py:Arc.transform"]}
{"id": "C62", "title": "Points on an arc", "statement": "point_at(mu) lies at distance radius from the centre; mu=0 and mu=1 give the end points; reversing an arc twice is the identity.", "quantifier": "every arc with end points on its circle", "why_tests_cant": "All real values.", "anchors": ["tcnc/geom/arc.py:Arc.point_at", "tcnc/geom/arc.py:Arc.point_at_angle", "tcnc/geom/arc.py:Arc.reversed"]}
{"id": "C63", "title": "Bezier subdivision is exact", "statement": "Subdividing a cubic Bezier at t gives two curves that trace exactly the original on [0,t] and [t,1] and join at the split point.", "quantifier": "every curve, every t and parameter", "why_tests_cant": "All real values.", "anchors": ["tcnc/geom/bezier.py:CubicBezier.subdivide", "tcnc/geom/bezier.py:CubicBezier.point_at"]}
{"id": "C64", "title": "Quadratic to cubic", "statement": "from_quadratic produces a cubic that equals the quadratic at every parameter.", "quantifier": "every quadratic, every parameter", "why_tests_cant": "All real values.", "anchors": ["tcnc/geom/bezier.py:CubicBezier.from_quadratic"]}
{"id": "C65", "title": "Graph adjacency is symmetric", "statement": "After any sequence of add_edge/remove_edge a node lists a neighbour iff the edge is in the edge set, the relation is symmetric, no edge is degenerate or duplicated, order() and size() count nodes and edges and the degrees sum to twice the size.", "quantifier": "every sequence of edge insertions and removals", "why_tests_cant": "Unit tests replay a handful of call sequences; the claim is an invariant over all histories.", "anchors": ["tcnc/geom/planargraph.py:Graph.add_edge", "tcnc/geom/planargraph.py:Graph.remove_edge"]}
{"id": "C66", "title": "Culling open edges", "statement": "cull_open_edges terminates, leaves no node of degree one, and the result is the largest such subgraph, independent of set iteration order.", "quantifier": "every graph", "why_tests_cant": "All graphs and iteration orders.", "anchors": ["tcnc/geom/planargraph.py:Graph.cull_open_edges"]}
{"id": "C67", "title": "Paths cover the graph", "statement": "build_paths terminates and returns paths along graph edges that use every edge exactly once, for every strategy and every random choice.", "quantifier": "every graph, strategy and sequence of random choices", "why_tests_cant": "All random choices.", "anchors": ["tcnc/geom/planargraph.py:GraphPathBuilder.build_paths"]}
{"id": "C68", "title": "Path parsing is total", "statement": "parse_path never raises on any text; every yielded command is M, L, C, Q or A with exactly 2, 2, 6, 4 or 7 parameters, and the first is M.", "quantifier": "every string", "why_tests_cant": "All strings.", "anchors": ["tcnc/svg/svg.py:parse_path", "tcnc/svg/svg.py:path_tokenizer"]}
{"id": "C69", "title": "Relative commands mean the same as absolute ones", "statement": "A path written with relative commands yields the same segments as the path written with the corresponding absolute coordinates.", "quantifier": "every path", "why_tests_cant": "All paths.", "anchors": ["tcnc/svg/svg.py:parse_path"]}
{"id": "C70", "title": "Smooth shorthand", "statement": "S and T use the reflection of the previous curve's control point about the current point, or the current point itself if the previous command was not a curve of the same kind (SVG 1.1 sections 8.3.6, 8.3.7).", "quantifier": "every path", "why_tests_cant": "Depends on the preceding command.", "anchors": ["tcnc/svg/svg.py:parse_path"]}
{"id": "C71", "title": "Closing a subpath", "statement": "Z yields a line back to the most recent M point, and drawing continues from there.", "quantifier": "every path", "why_tests_cant": "All paths.", "anchors": ["tcnc/svg/svg.py:parse_path"]}
{"id": "C72", "title": "Path text round trip", "statement": "Rendering canonical absolute commands as text and parsing the text gives back the same commands.", "quantifier": "every list of canonical commands", "why_tests_cant": "All lists.", "anchors": ["tcnc/svg/svg.py:parse_path", "tcnc/svg/svg.py:path_tokenizer"]}
{"id": "C73", "title": "Colour round trip", "statement": "Formatting an RGB triple as #rrggbb and parsing it returns the triple; parsing any colour text gives channels in 0..255; a colour conversion always returns #rrggbb.", "quantifier": "every triple and every string", "why_tests_cant": "All strings.", "anchors": ["tcnc/svg/css.py:csscolor_to_rgb", "tcnc/svg/css.py:csshex_to_rgb", "tcnc/svg/css.py:csscolor_to_cssrgb", "tcnc/svg/css.py:parse_channel_value"]}
{"id": "C74", "title": "Inline style round trip", "statement": "Formatting a style dictionary and parsing it back returns the dictionary, for names and values that contain no ';' and are trimmed.", "quantifier": "every style dictionary", "why_tests_cant": "All dictionaries.", "anchors": ["tcnc/svg/css.py:inline_style_to_dict", "tcnc/svg/css.py:dict_to_inline_style"]}
{"id": "C75", "title": "Unit conversion", "statement": "unit2uu and uu2unit are inverse to each other for every unit, and conversion factors are multiplicative.", "quantifier": "every value and unit", "why_tests_cant": "All values.", "anchors": ["tcnc/svg/svg.py:SVGContext.unit2uu", "tcnc/svg/svg.py:SVGContext.uu2unit", "tcnc/svg/svg.py:SVGContext.unit_convert"]}
{"id": "C76", "title": "Visibility", "statement": "node_is_visible is False iff the node or some ancestor is display:none or hidden/collapsed (with check_parent).", "quantifier": "every element tree", "why_tests_cant": "All trees.", "anchors": ["tcnc/svg/svg.py:SVGContext.node_is_visible"]}
{"id": "C77", "title": "Transform lists", "statement": "The matrix of a transform list maps points as applying the listed transforms from right to left, and nested element transforms compose outermost first.", "quantifier": "every list of transforms, every nesting depth", "why_tests_cant": "All lists and depths.", "anchors": ["tcnc/svg/svg.py:SVGContext.parse_transform_attr", "tcnc/svg/svg.py:SVGContext.get_parent_transform"]}
{"id": "C78", "title": "SVG shapes become closed geometry", "statement": "rect, circle, polyline, polygon and line elements convert to connected segment lists (closed for rect, circle and polygon) without raising.", "quantifier": "every shape element with numeric attributes", "why_tests_cant": "All shapes.", "anchors": ["tcnc/svg/geomsvg.py:convert_rect", "tcnc/svg/geomsvg.py:convert_circle", "tcnc/svg/geomsvg.py:convert_polygon", "tcnc/svg/geomsvg.py:convert_line", "tcnc/svg/geomsvg.py:svg_element_to_geometry"]}
{"id": "C79", "title": "Output files are never overwritten", "statement": "With append_suffix the returned path names a file that does not exist yet, whatever is in the directory and in whatever order it is listed.", "quantifier": "every directory content and listing order", "why_tests_cant": "Listing order is up to the OS.", "anchors": ["tcnc/cam/output.py:create_pathname"]}
{"id": "C80", "title": "Arc centre is consistent with the sweep", "statement": "Turning an arc's start point about the computed centre by the sweep angle gives its end point, when the chord fits the sweep (chord = 2 r |sin(angle/2)|).", "quantifier": "every pair of points at least EPSILON apart, radius and sweep", "why_tests_cant": "Ranges over all real configurations, including sweeps beyond half a turn.", "anchors": ["tcnc/geom/arc.py:Arc.calc_center", "tcnc/geom/arc.py:Arc.__new__"]}
{"id": "C81", "title": "Code generation raises nothing", "statement": "Once sorting and preprocessing succeed, generate_gcode on a generator with a positive tolerance that has not fed yet, without brush reload, raises no exception.", "quantifier": "every path list, every setting of depths, tangent mode, offsets and feeds", "why_tests_cant": "Ranges over all histories of calls inside a run: an unknown position or feed rate at any of them would raise.", "anchors": ["tcnc/cam/simplecam.py:SimpleCAM.generate_gcode", "tcnc/cam/simplecam.py:SimpleCAM.generate_segment_gcode", "tcnc/cam/gcode.py:GCodeGenerator.feed_arc"]}
{"id": "C82", "title": "Nothing is processed unless asked for", "statement": "With no sort method and all optional processing off, the paths that are cut are exactly the given paths of lines and arcs in the given order.", "quantifier": "every list of paths of lines and arcs", "why_tests_cant": "Ranges over all path lists.", "anchors": ["tcnc/cam/simplecam.py:SimpleCAM.preprocess_paths", "tcnc/cam/simplecam.py:SimpleCAM.sort_paths"]}
{"id": "C83", "title": "Path text is split as the SVG grammar says", "statement": "Path data is split into the same commands and numbers whatever blanks and commas separate them, and wherever a separator is left out as the SVG grammar allows (1-2, .5.5, L1 2).", "quantifier": "every spelling of every list of commands and numbers", "why_tests_cant": "Ranges over all texts: unboundedly many numbers, notations and separators.", "anchors": ["tcnc/svg/svg.py:path_tokenizer"]}
{"id": "C84", "title": "Exploding a path keeps every segment", "statement": "explode_path returns one path per drawing command of the given path, in order; each is read back as a move to where that command starts followed by that command, up to the printed precision; it raises only if parse_path does.", "quantifier": "every path text and number format", "why_tests_cant": "Ranges over all path texts.", "anchors": ["tcnc/svg/svg.py:explode_path"]}
{"id": "C85", "title": "SVG contexts do not influence each other", "statement": "The conversion of units by one SVGContext does not depend on which other contexts (for other documents, with other font sizes) were created before or after it.", "quantifier": "every history of creating contexts and every unit", "why_tests_cant": "Ranges over all histories.", "anchors": ["tcnc/svg/svg.py:SVGContext.__init__", "tcnc/svg/svg.py:SVGContext.unit2uu"]}
{"id": "C86", "title": "The view scale maps the viewport onto the viewBox", "statement": "For every document whose viewBox has the aspect ratio of its viewport, the context is created and its width attribute, converted to user units, is the width of the viewBox; a document with another aspect ratio is rejected.", "quantifier": "every width, height, unit and viewBox", "why_tests_cant": "Ranges over all sizes.", "anchors": ["tcnc/svg/svg.py:SVGContext.__init__"]}
{"id": "C87", "title": "Path data becomes connected geometry", "statement": "parse_path_geom returns one list of segments per subpath that draws something, in order; it has a segment for every drawing command, which starts where the pen is and ends at the end point of the command (so consecutive segments are connected and the first starts at the moveto point) and describes the same curve.", "quantifier": "every path text", "why_tests_cant": "Ranges over all path texts: unboundedly many commands in any order.", "anchors": ["tcnc/svg/geomsvg.py:parse_path_geom"]}
{"id": "C88", "title": "SVG arcs become the right elliptical arc", "statement": "EllipticalArc.from_endpoints returns, for every pair of different end points and radii that are not zero, an arc on an ellipse with the given radii (enlarged only if too small) and rotation through both points, with a sweep over half a turn exactly for the large arc flag and in the direction of the sweep flag; coincident end points do not raise.", "quantifier": "every pair of points, radii, rotation and flags", "why_tests_cant": "Ranges over all real configurations.", "anchors": ["tcnc/geom/ellipse.py:EllipticalArc.from_endpoints"]}
{"id": "C89", "title": "Ellipse queries are right", "statement": "point_at traces exactly the points of the ellipse, derivative is its derivative, pointt inverts point_at, point_inside answers whether the point is inside, the focus points have the focal property, and the constructor normalises the axes without changing the ellipse.", "quantifier": "every ellipse, parameter and point", "why_tests_cant": "Ranges over all real ellipses and points.", "anchors": ["tcnc/geom/ellipse.py:Ellipse"]}
{"id": "C90", "title": "bezier_ellipse follows the ellipse", "statement": "bezier_ellipse terminates and returns connected curves from the start to the end of the arc whose ends are on the ellipse and touch it there, each spanning at most a quarter turn.", "quantifier": "every ellipse and elliptical arc, in both directions", "why_tests_cant": "Ranges over all sweeps, so over any number of pieces.", "anchors": ["tcnc/geom/bezier.py:bezier_ellipse", "tcnc/geom/bezier.py:bezier_elliptical_arc"]}
{"id": "C91", "title": "Circle intersections are exact", "statement": "intersect_circle returns exactly the points that are on both circles (none for coincident circles).", "quantifier": "every pair of circles", "why_tests_cant": "Ranges over all real configurations, including touching ones.", "anchors": ["tcnc/geom/ellipse.py:intersect_circle"]}
{"id": "C92", "title": "Bezier circles, arcs and sine waves are accurate", "statement": "bezier_circle, bezier_circular_arc (for up to a quarter turn) and bezier_sine_wave return connected curves with the right end points; points of the first two are within 0.055 percent (in square) of the circle and the curve of an arc passes through its middle; the curves of a sine wave meet smoothly, pass through crests and troughs and never exceed the amplitude.", "quantifier": "every centre, radius, arc, amplitude, wavelength and number of cycles", "why_tests_cant": "Ranges over all real parameters and all points of the curves.", "anchors": ["tcnc/geom/bezier.py:bezier_circle", "tcnc/geom/bezier.py:bezier_circular_arc", "tcnc/geom/bezier.py:bezier_sine_wave"]}
{"id": "C93", "title": "Offsetting an arc keeps its centre and angle", "statement": "Arc.offset returns, for every arc and distance, the concentric arc with the same angle whose radius is changed by the distance and whose ends are on the rays through the ends of the arc; its radius is never negative.", "quantifier": "every arc and distance", "why_tests_cant": "Ranges over all real arcs and distances.", "anchors": ["tcnc/geom/arc.py:Arc.offset"]}
{"id": "C94", "title": "The arc from a tangent starts in the direction of the tangent", "statement": "Arc.from_two_points_and_tangent returns, for every start point, direction and end point, the circular arc that leaves the start point in that direction and ends at the end point.", "quantifier": "every pair of points and direction", "why_tests_cant": "Ranges over all real configurations.", "anchors": ["tcnc/geom/arc.py:Arc.from_two_points_and_tangent"]}
{"id": "C95", "title": "Biarcs follow the Bezier curve", "statement": "biarc_approximation replaces consecutive parts of a Bezier curve, from its start to its end and leaving out none that can be seen, each by its chord or by two arcs that start and end with the part, are tangent to the curve there, meet with a common tangent, and stay within the tolerance of the curve.", "quantifier": "every curve, tolerance, recursion depth and flatness", "why_tests_cant": "Ranges over all real curves, any number of parts and all points of the curve.", "anchors": ["tcnc/geom/bezier.py:CubicBezier.biarc_approximation", "tcnc/geom/bezier.py:CubicBezier.subdivide_inflections"]}
{"id": "C96", "title": "convex_hull returns the convex hull", "statement": "convex_hull returns, in counter-clockwise order and without repetition, points of its input such that no input point lies to the right of any edge and every corner turns left; collinear inputs give the two end points, one point gives itself and no points give an empty list.", "quantifier": "every finite list of points, in any order, with repetitions and collinear points", "why_tests_cant": "Ranges over lists of any length and all real coordinates.", "anchors": ["tcnc/geom/polygon.py:convex_hull", "tcnc/geom/polygon.py:_keep_left", "tcnc/geom/polygon.py:turn"]}
{"id": "C97", "title": "convex_hull_chan returns the convex hull", "statement": "convex_hull_chan returns the same hull as convex_hull for every list of points.", "quantifier": "every finite list of points", "why_tests_cant": "Ranges over lists of any length.", "anchors": ["tcnc/geom/polygon.py:convex_hull_chan", "tcnc/geom/polygon.py:_rtangent"]}
{"id": "C98", "title": "The preview follows the tool", "statement": "After every sequence of generator calls with a preview plotter, the preview has drawn exactly one line or arc for each call that moves the tool, from the location shown before the call to the location after it, and the location shown is the reported position of the tool up to the comparison tolerance; a call that succeeds without a preview succeeds with it.", "quantifier": "every history of generator calls and plotter settings", "why_tests_cant": "Ranges over all histories of calls.", "anchors": ["tcnc/cam/gcodesvg.py:SVGPreviewPlotter.plot_move", "tcnc/cam/gcodesvg.py:SVGPreviewPlotter.plot_feed", "tcnc/cam/gcodesvg.py:SVGPreviewPlotter.plot_arc", "tcnc/cam/gcode.py:GCodeGenerator._endp"]}
{"id": "C99", "title": "The preview shows the arcs of the machine", "statement": "The SVG arc drawn for a G2/G3 block is the arc of the machine: the same centre, the same direction and the same angle.", "quantifier": "every arc call in every state", "why_tests_cant": "Ranges over all real arcs, including those of more than half a turn.", "anchors": ["tcnc/cam/gcodesvg.py:SVGPreviewPlotter.plot_arc", "tcnc/svg/svg.py:SVGContext.create_circular_arc"]}
{"id": "C100", "title": "Tool marks divide a segment evenly", "statement": "With tool marks on, every feed adds marks at both ends and at the points that divide the segment in equal parts of about the marking interval, turned evenly from the angle before to the angle after, each as wide as the tool and trailing by its offset.", "quantifier": "every segment, interval, tool width, offset and rotation", "why_tests_cant": "Ranges over all real segments, so over any number of marks.", "anchors": ["tcnc/cam/gcodesvg.py:SVGPreviewPlotter._draw_tool_marks", "tcnc/cam/gcodesvg.py:SVGPreviewPlotter._draw_tool_mark"]}
{"id": "C101", "title": "Whole programs traverse at the safe height and end raised", "statement": "In every program Tcnc writes, however the run ends, each rapid move in X or Y starts and ends with the machine at or above the safe height of the options; a completed program leaves the machine at the safe height.", "quantifier": "every document, option values and list of paths", "why_tests_cant": "Ranges over all paths, so over programs of any length, and all settings.", "anchors": ["tcnc/tcnc.py:Tcnc.run", "tcnc/tcnc.py:Tcnc._init_gcode", "tcnc/tcnc.py:Tcnc._init_cam", "tcnc/cam/simplecam.py:SimpleCAM.generate_gcode"]}
{"id": "C102", "title": "The G code is in the declared unit", "statement": "Every program declares inches or millimetres in its header, as chosen by the options (document units: millimetres for metric documents, inches for the other absolute units), and the machine coordinates X, Y, Z in that unit are the positions in user units converted by the document's unit sizes and view scale.", "quantifier": "every document unit, view scale, option values and list of paths", "why_tests_cant": "Ranges over all documents, coordinates and program lengths.", "anchors": ["tcnc/tcnc.py:Tcnc._init_gcode", "tcnc/svg/svg.py:SVGContext.uu2unit", "tcnc/cam/gcode.py:GCodeGenerator.set_units"]}
{"id": "C103", "title": "Heights are machine units", "statement": "The safe height given in the options (documented in machine units) is the height of the machine, in the unit of the G code, at the end of every completed program.", "quantifier": "every document and option values", "why_tests_cant": "Ranges over all documents and settings.", "anchors": ["tcnc/tcnc.py:Tcnc._init_gcode", "tcnc/cam/gcode.py:GCodeGenerator.tool_up"]}
{"id": "C104", "title": "Depth options give the documented passes", "statement": "For all option values code generation ends; with a final depth and a depth per pass, whatever the sign of the latter, the passes go down by the depth per pass and never below the final depth; a depth per pass of zero or beyond the final depth gives one pass at the final depth; valid settings give a completed program.", "quantifier": "every option values and list of paths", "why_tests_cant": "Ranges over all real depths, so over any number of passes.", "anchors": ["tcnc/tcnc.py:Tcnc._init_cam", "tcnc/cam/simplecam.py:SimpleCAM.generate_gcode"]}
{"id": "C105", "title": "Waits have the length of the options", "statement": "Every start of the spindle is followed at once by a wait of the option's number of seconds, and every wait after a tool movement lasts the option's number of seconds.", "quantifier": "every document, option values and list of paths", "why_tests_cant": "Ranges over all programs.", "anchors": ["tcnc/tcnc.py:Tcnc._init_gcode", "tcnc/cam/gcode.py:GCodeGenerator.tool_up", "tcnc/cam/gcode.py:GCodeGenerator.dwell"]}
{"id": "C106", "title": "Angular feed matching moves the tool edge at the feed rate", "statement": "With angular feed matching the rate of the A axis makes the outside edge of a tool of the given width move at the XY feed rate; without, the rate is the option.", "quantifier": "every tool width and feed rate", "why_tests_cant": "Ranges over all real widths and rates.", "anchors": ["tcnc/tcnc.py:Tcnc._init_gcode"]}
{"id": "C107", "title": "Output precision matches the tolerance", "statement": "Every number in the program is written with enough decimals for an error within the tolerance of the options (between 2 and 15 decimals); a tolerance that is not positive is refused.", "quantifier": "every tolerance, document, other option values and list of paths", "why_tests_cant": "Ranges over all positive tolerances and programs.", "anchors": ["tcnc/tcnc.py:Tcnc._init_gcode", "tcnc/cam/gcode.py:GCodeGenerator.set_output_precision"]}
{"id": "C108", "title": "Options in document units are converted to user units", "statement": "The value of every option in document units, given or default, is the length in user units.", "quantifier": "every document unit, view scale and value", "why_tests_cant": "Ranges over all documents and values.", "anchors": ["tcnc/inkscape/inkext.py:InkscapeExtension._post_process_options", "tcnc/inkscape/inkext.py:InkscapeExtension._process_options"]}
{"id": "C109", "title": "The spindle runs while cutting", "statement": "With a spindle option that turns it on (at the start or before every path), every cutting move of every program is executed with the spindle on.", "quantifier": "every document, option values and list of paths", "why_tests_cant": "Ranges over all programs.", "anchors": ["tcnc/tcnc.py:Tcnc._init_gcode", "tcnc/cam/simplecam.py:SimpleCAM.plunge", "tcnc/cam/gcode.py:GCodeGenerator.tool_down"]}
{"id": "C110", "title": "Without the tangential axis nothing turns", "statement": "With the tangential axis disabled, every program keeps A at zero at every moment, and no compensation for tool width or trail is applied to the paths.", "quantifier": "every document, option values and list of paths", "why_tests_cant": "Ranges over all programs and all moments in them.", "anchors": ["tcnc/tcnc.py:Tcnc._init_cam", "tcnc/cam/simplecam.py:SimpleCAM.generate_segment_gcode", "tcnc/cam/simplecam.py:SimpleCAM.preprocess_paths"]}
{"id": "C111", "title": "Shapes below a node are found with their transforms", "statement": "Collecting the shapes below a node lists, in document order, every shape element that is visible and not below a skipped layer, exactly once, each with the composition of the transforms of all its ancestors and its own; hidden elements and skipped layers contribute nothing; nodes that are not elements, such as comments, are ignored.", "quantifier": "every document tree, of any depth and width, with any transforms and styles", "why_tests_cant": "Ranges over all trees.", "anchors": ["tcnc/inkscape/inksvg.py:InkscapeSVGContext.get_shape_elements", "tcnc/svg/svg.py:SVGContext.node_is_visible"]}
{"id": "C112", "title": "References draw what they refer to", "statement": "A use element draws the shapes of the element it refers to, moved by its x and y inside its own transform, also through nested references; a document in which no reference leads back to itself is flattened completely, and one with an endless reference is reported.", "quantifier": "every document tree with use elements, nested to any depth", "why_tests_cant": "Ranges over all trees and reference graphs.", "anchors": ["tcnc/inkscape/inksvg.py:InkscapeSVGContext.get_shape_elements", "tcnc/svg/svg.py:SVGContext.parse_transform_attr"]}
{"id": "C113", "title": "What is cut is the drawing or the selection", "statement": "Tcnc cuts the visible shapes of the selection, or of the whole document if nothing is selected, each once, and never the layers it has drawn itself (preview, debug).", "quantifier": "every document and selection", "why_tests_cant": "Ranges over all documents and selections.", "anchors": ["tcnc/tcnc.py:Tcnc.run", "tcnc/inkscape/inkext.py:InkscapeExtension.get_elements", "tcnc/inkscape/inksvg.py:InkscapeSVGContext.get_layer_name"]}
{"id": "C114", "title": "The machine follows the drawing", "statement": "For every drawing with a page size and shapes to cut, the program that is written moves the tool in X and Y, in this order, to the start of each shape and along it from corner to corner, once for each pass and at its depth, and nowhere else; the positions are those of the drawing measured from the lower left corner of the page, after all transforms, in units of the G code, to within the tolerance.", "quantifier": "every document, selection, option values and list of shapes", "why_tests_cant": "Ranges over all documents and programs of any length.", "anchors": ["tcnc/tcnc.py:Tcnc.run", "tcnc/inkscape/inksvg.py:InkscapeSVGContext.__init__", "tcnc/svg/svg.py:SVGContext.__init__", "tcnc/svg/geomsvg.py:svg_to_geometry", "tcnc/cam/simplecam.py:SimpleCAM.generate_gcode"]}
{"id": "C115", "title": "The length of a curve is the arc length", "statement": "For every curve and positive tolerance the computation of the length ends and returns a value that differs from the true arc length by at most half the tolerance for each piece the curve was halved into, and every piece is flat to the tolerance; asking again with another tolerance gives the length to that tolerance.", "quantifier": "every Bezier curve and tolerance", "why_tests_cant": "Ranges over all real control points and any depth of subdivision.", "anchors": ["tcnc/geom/bezier.py:CubicBezier.length", "tcnc/geom/bezier.py:CubicBezier.subdivide"]}
{"id": "C116", "title": "Derivatives and curvature of a curve", "statement": "The derivative functions return the first, second and third derivative of the curve; the curvature is the rate at which its unit tangent turns to the left per unit of length.", "quantifier": "every Bezier curve and parameter", "why_tests_cant": "Ranges over all real curves and parameters.", "anchors": ["tcnc/geom/bezier.py:CubicBezier.derivative1", "tcnc/geom/bezier.py:CubicBezier.derivative2", "tcnc/geom/bezier.py:CubicBezier.derivative3", "tcnc/geom/bezier.py:CubicBezier.curvature_at"]}
{"id": "C117", "title": "Extrema of a curve bound it", "statement": "For every curve the returned parameters are exactly those inside the curve at which its tangent is horizontal or vertical, so that the box around the ends and the points at these parameters contains the whole curve.", "quantifier": "every Bezier curve", "why_tests_cant": "Ranges over all real curves and parameters.", "anchors": ["tcnc/geom/bezier.py:CubicBezier.find_extrema"]}
{"id": "C118", "title": "Smoothing keeps the corners and joins smoothly", "statement": "Smoothing a connected path of lines and arcs returns one Bezier curve for each segment, with the same end points, such that each curve starts in the direction in which the one before it ended; in a closed path the first curve also starts in the direction in which the last one ended. Nothing of the path is lost.", "quantifier": "every path of lines, arcs and curves, of any length, open or closed, and every smoothness", "why_tests_cant": "Ranges over all real paths of any length.", "anchors": ["tcnc/geom/bezier.py:smooth_path", "tcnc/geom/bezier.py:smoothing_curve"]}
{"id": "C119", "title": "Repair of the tangents of an offset path", "statement": "After the tool has been offset, every segment marked as having been smooth before is replaced by lines and arcs along a smooth curve with the same ends, the tool turning evenly from the angle at the start of the segment to the angle at its end; unmarked segments stay as they are; and the path is smooth again where marked segments meet their successors.", "quantifier": "every path of any length with any marks, tool angles and tolerances", "why_tests_cant": "Ranges over all real paths of any length.", "anchors": ["tcnc/cam/offset.py:fix_G1_path", "tcnc/cam/offset.py:smoothing_arcs", "tcnc/geom/bezier.py:smoothing_curve"]}
{"id": "C120", "title": "Inside changes exactly at the sides", "statement": "For every polygon, convex or not, and every two points with a straight way between them that avoids the corners, one is inside and the other is not exactly if the way crosses an odd number of sides; so a point is inside exactly if a way from it to the far outside crosses an odd number of sides.", "quantifier": "every polygon with any number of vertices and every two points", "why_tests_cant": "Ranges over all real polygons of any size.", "anchors": ["tcnc/geom/polygon.py:point_inside"]}
{"id": "C121", "title": "Clipping a line to a polygon", "statement": "Clipping a line to a polygon returns exactly the parts of the line that are inside the polygon, less those shorter than the tolerance.", "quantifier": "every polygon with any number of vertices and every line", "why_tests_cant": "Ranges over all real polygons of any size and all lines.", "anchors": ["tcnc/geom/polygon.py:intersect_line", "tcnc/geom/polygon.py:point_inside"]}
{"id": "C122", "title": "Fillets round the corners of a polyline", "statement": "If there is room for fillets of the given radius at the corners of a polyline or polygon, the result is a path that is smooth everywhere (for a closed polygon also where it closes) and consists of parts of the sides and of arcs of that radius that touch two adjacent sides at equal distances from the corner; straight corners stay; a fillet that does not fit, to the tolerance, is never inserted.", "quantifier": "every polyline and polygon with any number of corners, and every radius", "why_tests_cant": "Ranges over all real polylines of any length.", "anchors": ["tcnc/geom/fillet.py:fillet_polygon", "tcnc/geom/fillet.py:fillet_path", "tcnc/geom/fillet.py:insert_fillet", "tcnc/geom/fillet.py:fillet_line_line"]}
{"id": "C123", "title": "Layers are found, made and numbered without loss", "statement": "Creating a layer with a numeric suffix ends and returns an empty layer that has the name asked for, or the name with the first free number if that layer has something in it, without changing anything else in the drawing; without the suffix the first layer of that name is used (emptied if asked for) and nothing else changes, or a new one is added at the end; a new layer has the opacity (limited to 0..1) and orientation asked for; running again empties the layer of the last run and adds nothing.", "quantifier": "every document tree, layer name and argument", "why_tests_cant": "Ranges over all trees of any size and any number of numbered layers.", "anchors": ["tcnc/inkscape/inksvg.py:InkscapeSVGContext.create_layer", "tcnc/inkscape/inksvg.py:InkscapeSVGContext.find_layer", "tcnc/inkscape/inksvg.py:InkscapeSVGContext.clear_layer"]}
{"id": "C124", "title": "Running again cuts the same", "statement": "What a run of tcnc adds to the drawing in its own layers (preview, debug) does not change what the next run cuts: the same elements with the same transforms in the same order, or the same exception.", "quantifier": "every document tree and everything drawn in tcnc's own layers", "why_tests_cant": "Ranges over all trees and all contents.", "anchors": ["tcnc/tcnc.py:Tcnc.run", "tcnc/inkscape/inksvg.py:InkscapeSVGContext.create_layer", "tcnc/inkscape/inksvg.py:InkscapeSVGContext.get_shape_elements"]}
{"id": "C125", "title": "Visible layers, their elements, and the margins", "statement": "The visible layers are exactly the layers at the top of the drawing that nothing switches off, the elements of a layer exactly its children that nothing switches off, in order; and the rectangle within given margins (as in CSS) contains exactly the points that are at least the margins away from the sides of the page.", "quantifier": "every document tree, page size and margins", "why_tests_cant": "Ranges over all trees and all real margins.", "anchors": ["tcnc/inkscape/inksvg.py:InkscapeSVGContext.get_visible_layers", "tcnc/inkscape/inksvg.py:InkscapeSVGContext.get_layer_elements", "tcnc/inkscape/inksvg.py:InkscapeSVGContext.margin_cliprect"]}
{"id": "C126", "title": "Grids of lines stay within the margins, and end", "statement": "Whatever the angle, spacing, variation and random jitter of a grid are, every line drawn is within the margins (to the tolerance) and not shorter than the tolerance; and with positive spacing the lines are found after finitely many rounds, without an exception.", "quantifier": "every rectangle, angle, spacing, variation of spacing, and every sequence of random numbers", "why_tests_cant": "Ranges over all real settings and all random sequences.", "anchors": ["tcnc/lines.py:LineSet.make_lines", "tcnc/lines.py:LineSet.scaled_spacing", "tcnc/lines.py:LineSet.angle_jittered_line", "tcnc/geom/box.py:Box.clip_line"]}
{"id": "C127", "title": "Grid lines are evenly spaced at the angle asked for", "statement": "Without variation and jitter the lines of a grid have the angle asked for and the distance asked for from one another, from the lower (or left) side to the other, and each is drawn as far as it is within the margins.", "quantifier": "every rectangle, angle and spacing", "why_tests_cant": "Ranges over all real settings and any number of lines.", "anchors": ["tcnc/lines.py:LineSet.__init__", "tcnc/lines.py:LineSet.make_lines", "tcnc/lines.py:LineSet.scaled_spacing"]}
{"id": "C128", "title": "Order, direction and connection of grid lines", "statement": "Lines are drawn in the direction asked for (reversed, alternating), doubled lines are drawn there and back, connecting adds exactly the missing straight lines from the end of one line to the start of the next so that one continuous path results, paths are the longest continuous runs of lines, and alternating horizontal and vertical paths are drawn in turn, each once.", "quantifier": "every list of lines of any length and all options", "why_tests_cant": "Ranges over lists of any length.", "anchors": ["tcnc/lines.py:Lines.insert_reversed_lines", "tcnc/lines.py:Lines.insert_connectors", "tcnc/lines.py:Lines.connected_paths", "tcnc/lines.py:Lines.run"]}
{"id": "C129", "title": "Written path data reads back as the same figure", "statement": "The path data written for a line, an arc, a Bezier curve, a polygon (of at least two vertices) or a path of lines, arcs and curves is well-formed, and reading it gives exactly the move, lines, arcs and curves that were given, in order, with every number rounded to six decimals (within half a millionth, numbers that have six decimals exactly).", "quantifier": "every shape, polygon and path of any length with rational (so every finite floating-point) coordinates", "why_tests_cant": "Ranges over paths of any length and all coordinates.", "anchors": ["tcnc/svg/svg.py:SVGContext.create_line", "tcnc/svg/svg.py:SVGContext.create_circular_arc", "tcnc/svg/svg.py:SVGContext.create_curve", "tcnc/svg/svg.py:SVGContext.create_polygon", "tcnc/svg/svg.py:SVGContext.create_polypath", "tcnc/svg/svg.py:parse_path"]}
{"id": "C130", "title": "Written arcs and ellipses mean the given ones", "statement": "The arc and ellipse commands written to the drawing describe, by the rules of SVG, the arc (with its centre and its sweep) and the whole ellipse that were given.", "quantifier": "every arc and ellipse", "why_tests_cant": "Ranges over all real arcs and ellipses.", "anchors": ["tcnc/svg/svg.py:SVGContext.create_circular_arc", "tcnc/svg/svg.py:SVGContext.create_polypath", "tcnc/svg/svg.py:SVGContext.create_ellipse"]}
{"id": "C131", "title": "New documents have the size, units and layer asked for", "statement": "A newly created document opens with the width and height asked for in the units asked for, its size being written in the shortest decimal form; it has a layer exactly if one is asked for, and it is found by its name.", "quantifier": "every width, height, unit and name", "why_tests_cant": "Ranges over all numbers and names.", "anchors": ["tcnc/svg/svg.py:create_svg_document", "tcnc/inkscape/inksvg.py:create_inkscape_document", "tcnc/svg/svg.py:SVGContext"]}
{"id": "C132", "title": "Fresh identifiers", "statement": "An identifier generated for a document is not one that an element of the document already has.", "quantifier": "every document and every sequence of random numbers", "why_tests_cant": "Ranges over all documents and random sequences.", "anchors": ["tcnc/svg/svg.py:random_id"]}
{"id": "C133", "title": "Written transforms mean the given matrix", "statement": "The transform attribute written for any matrix can be read back and moves every point to where the matrix moves it, to half a millionth of the coordinates (exactly if the numbers have six decimals); only the identity is taken for the identity.", "quantifier": "every matrix and every point", "why_tests_cant": "Ranges over all real matrices and points.", "anchors": ["tcnc/svg/svg.py:transform_attr", "tcnc/svg/svg.py:SVGContext.parse_transform_attr", "tcnc/geom/transform2d.py:is_identity_transform"]}
{"id": "C134", "title": "Repeated copies are where they are asked for", "statement": "The repeater ends and adds for every selected element the number of copies asked for, each the same element with the same content, the first moved by the interval in the direction of the angle, the second by twice the interval, and so on.", "quantifier": "every selection, number of copies, interval and angle", "why_tests_cant": "Ranges over all elements with all transforms and any number of copies.", "anchors": ["tcnc/repeater.py:Repeater.run", "tcnc/svg/svg.py:transform_attr"]}
{"id": "C135", "title": "Shuffling keeps the paths", "statement": "Shuffling puts exactly the paths that are visible in the layers (or that are selected), or exactly their pieces, into a new layer, each once, in the order asked for and at the place and with the style they had, and changes nothing else in the drawing; if there is nothing to do it does nothing.", "quantifier": "every document, selection, option and random order", "why_tests_cant": "Ranges over all trees and all permutations.", "anchors": ["tcnc/pathshuffler.py:BreakShuffle.run"]}
{"id": "C136", "title": "Simplifying polylines before smoothing", "statement": "Simplifying a path keeps its curves, its order and its ends: the result is connected, begins and ends where the path does, uses only vertices of the path, and no point of a line of the path is further than the tolerance from it.", "quantifier": "every path of lines and curves of any length and every non-negative tolerance", "why_tests_cant": "Ranges over all real paths of any length.", "anchors": ["tcnc/polysmooth.py:PolySmooth.simplify_polylines", "tcnc/polysmooth.py:PolySmooth._simplify_polyline", "tcnc/geom/polygon.py:simplify_polyline_rdp"]}
{"id": "C137", "title": "Smoothed paths go where they belong", "statement": "Every smoothed path is written exactly once, in order, either into the new layer or to the place of the element it replaces.", "quantifier": "every element with any number of paths", "why_tests_cant": "Ranges over lists of any length.", "anchors": ["tcnc/polysmooth.py:PolySmooth.run"]}
{"id": "C138", "title": "Outline of the tool marks", "statement": "Each side of the outline drawn for the tool marks is a connected path that begins at the first mark, ends at the last one, has no loops, and passes through the marks except where loops and turns back are collapsed; drawing it never fails.", "quantifier": "every list of tool marks of any length", "why_tests_cant": "Ranges over all real point lists of any length.", "anchors": ["tcnc/cam/gcodesvg.py:SVGPreviewPlotter._make_outline_path", "tcnc/cam/gcodesvg.py:SVGPreviewPlotter._fix_intersections", "tcnc/cam/gcodesvg.py:SVGPreviewPlotter._fix_reversals"]}
{"id": "C139", "title": "Sub-paths of a wide tool", "statement": "For every distance the sub-paths are drawn at the multiples of the distance that are less than the width of the tool, through the points of the tool marks at that distance from their first end, and the drawing ends.", "quantifier": "every distance, width and list of tool marks", "why_tests_cant": "Ranges over all real numbers; termination.", "anchors": ["tcnc/cam/gcodesvg.py:SVGPreviewPlotter._draw_subpaths"]}
{"id": "C140", "title": "Faces of a planar graph", "statement": "get_face_polygons always returns; every face of the drawing that is enclosed by edges is returned as one polygon that runs along edges with the face on its left, no side of an edge belongs to two polygons, and the result does not depend on the order of the nodes.", "quantifier": "every graph, every iteration order of the node map", "why_tests_cant": "Ranges over all graphs of any size and all iteration orders.", "anchors": ["tcnc/geom/planargraph.py:make_face_polygons", "tcnc/geom/planargraph.py:make_face", "tcnc/geom/planargraph.py:find_free_edge_node", "tcnc/geom/planargraph.py:Graph.get_face_polygons"]}
{"id": "C141", "title": "Boundary of a planar graph", "statement": "boundary_polygon never fails, starts at a lowest vertex, and is the closed walk along the outer edges of the graph.", "quantifier": "every graph, after every history of additions, removals and queries", "why_tests_cant": "Ranges over all graphs and histories.", "anchors": ["tcnc/geom/planargraph.py:Graph.boundary_polygon", "tcnc/geom/planargraph.py:Graph._build_boundary_polygon", "tcnc/geom/planargraph.py:GraphNode.ccw_edge_node"]}
{"id": "C142", "title": "Longest paths of a graph", "statement": "build_longest_paths returns paths along edges that repeat no edge, longest first, without duplicates, and no longer path was found from any edge.", "quantifier": "every graph, every order of the edges, every strategy and every outcome of the random choices", "why_tests_cant": "Ranges over all graphs, set iteration orders and random choices.", "anchors": ["tcnc/geom/planargraph.py:GraphPathBuilder.build_longest_paths", "tcnc/geom/planargraph.py:GraphPathBuilder._dedupe_paths"]}
{"id": "C143", "title": "Adding a polygon to a graph", "statement": "add_poly adds exactly the sides of the polygon or polyline, the closing side only if asked for, and leaves the graph consistent.", "quantifier": "every graph and every list of vertices", "why_tests_cant": "Ranges over all vertex lists and graph states.", "anchors": ["tcnc/geom/planargraph.py:Graph.add_poly"]}
{"id": "C144", "title": "Voronoi diagrams end and are complete", "statement": "Computing a Voronoi diagram always ends, with no exception; each pair of neighbouring points has exactly one edge, the end points of the edges are vertices of the diagram, and the numbers of edges, vertices and triangles fit together.", "quantifier": "every list of points, every behaviour of floating point arithmetic", "why_tests_cant": "Ranges over point lists of any length and any arithmetic; termination.", "anchors": ["tcnc/geom/voronoi.py:VoronoiDiagram", "tcnc/geom/voronoi.py:_EdgeList", "tcnc/geom/voronoi.py:_PriorityQueue", "tcnc/geom/voronoi.py:_HalfEdge"]}
{"id": "C145", "title": "Voronoi edges and vertices", "statement": "The equation of each Voronoi edge is the perpendicular bisector of its two input points, each vertex is equally far from three different input points, the triangles have input points as corners, and jiggling moves degenerate points by a small distance.", "quantifier": "every list of points", "why_tests_cant": "Ranges over all real point lists of any length.", "anchors": ["tcnc/geom/voronoi.py:_Edge.__init__", "tcnc/geom/voronoi.py:_HalfEdge.intersect", "tcnc/geom/voronoi.py:DelaunayTriangle.p3", "tcnc/geom/voronoi.py:jiggle"]}
{"id": "C146", "title": "The Voronoi sweep is in order", "statement": "The sweep handles the points from bottom to top and from left to right, and never handles a point or a vertex while another point or vertex that is due earlier is waiting.", "quantifier": "every list of points and every state the main loop goes through", "why_tests_cant": "Ranges over point lists of any length and all states of the loop.", "anchors": ["tcnc/geom/voronoi.py:_PriorityQueue.insert", "tcnc/geom/voronoi.py:_PriorityQueue.get_min_point", "tcnc/geom/voronoi.py:_SiteList", "tcnc/geom/voronoi.py:VoronoiDiagram._compute_voronoi"]}
{"id": "C147", "title": "Quasicrystal tilings: which tiles", "statement": "Quasi.quasi draws, once each and in rings outwards from the middle, one unit rhombus for every crossing of two grid lines of different directions that lies well inside the lines of all other directions, and nothing else; it always finishes, also for even symmetries.", "quantifier": "every symmetry, number of lines, offset and plotter", "why_tests_cant": "Ranges over all symmetries, sizes and offsets; termination.", "anchors": ["tcnc/geom/quasi.py:Quasi.quasi", "tcnc/geom/quasi.py:Quasi._init_vectors", "tcnc/geom/quasi.py:_QVector"]}
{"id": "C148", "title": "Quasicrystal tilings: tiles and grid cells", "statement": "The corners of each tile stand for the four cells of the line grid that meet at its crossing, so that tiles of neighbouring crossings on one grid line share a side.", "quantifier": "every tiling and every crossing through which no third line passes", "why_tests_cant": "Ranges over all tilings and all pairs of neighbouring crossings.", "anchors": ["tcnc/geom/quasi.py:Quasi.quasi", "tcnc/geom/quasi.py:Quasi._plot"]}
{"id": "C149", "title": "Quasicrystal tilings: segments", "statement": "Each tile that the plotter draws whole is followed at once by the segments of the kind set for skinny or fat tiles, between the points of the sides or the corners that the kind names; a clipped tile gets none.", "quantifier": "every tiling, segment kind, ratio and sequence of plotter replies", "why_tests_cant": "Ranges over all tilings, settings and plotter behaviours.", "anchors": ["tcnc/geom/quasi.py:Quasi._plot", "tcnc/geom/quasi.py:QuasiPlotter"]}
{"id": "C150", "title": "Quasicrystal drawings: segment chains", "statement": "Chaining the segments always ends and draws every segment in exactly one line, each line running from end to end of segments that meet, extended as far as the segments that are left allow; the lines around the largest area come first, and a closed polygon of segments is drawn as one closed line.", "quantifier": "every list of segments and every tolerance", "why_tests_cant": "Ranges over segment lists of any length and order; termination.", "anchors": ["tcnc/quasink.py:Quasink._create_chains", "tcnc/quasink.py:_SegmentChain", "tcnc/quasink.py:Quasink._draw_segment_chains"]}
{"id": "C151", "title": "Quasicrystal drawings: spherical projection", "statement": "The spherical projection is defined for every point, moves points only along their ray from the centre, leaves what is outside the circle alone, keeps the inside inside, and never folds two points onto one.", "quantifier": "every point, centre, radius and direction", "why_tests_cant": "Ranges over all points and radii.", "anchors": ["tcnc/quasink.py:SphericalProjector.project"]}
{"id": "C152", "title": "Quasicrystal drawings: what is kept", "statement": "The plotter keeps exactly the tiles and boxes that lie, after placement, with all corners in the clipping region, once each and in the order they were plotted, each with its own colour; it reports for each tile whether it was kept, and knows the bounding box of what it kept.", "quantifier": "every clipping region, placement and sequence of plotted tiles, segments and boxes", "why_tests_cant": "Ranges over all sequences of calls and all regions.", "anchors": ["tcnc/quasink.py:_QuasiPlotter.plot_polygon", "tcnc/quasink.py:_QuasiPlotter.plot_segment", "tcnc/quasink.py:_QuasiPlotter.plot_segpoly", "tcnc/quasink.py:_QuasiPlotter.bbox"]}
{"id": "C153", "title": "Quasicrystal drawings: placement", "statement": "The tiling is scaled and turned about its middle, which is put in the middle of the page plus the offset; only what lies inside the page, the margins or the largest circle in them (as chosen) is drawn, nothing if they leave no room; centering and re-centering move everything together to the middle of that region.", "quantifier": "every page, margin, scale, rotation and offset setting, every finished tiling", "why_tests_cant": "Ranges over all real settings.", "anchors": ["tcnc/quasink.py:Quasink.run", "tcnc/quasink.py:_QuasiPlotter.recenter"]}
{"id": "C154", "title": "Quasicrystal drawings: colours and layers", "statement": "Every tile, box, edge and segment that was kept is drawn once; tiles and boxes of one kind get one colour, ordered by kind, also if the tiles are sorted; edges use the colours in turn, each in the layer of its colour, scaled about their middle and cut to the margins.", "quantifier": "every finished tiling, colour table, offset and layer option", "why_tests_cant": "Ranges over tilings of any size and all tables.", "anchors": ["tcnc/quasink.py:Quasink._draw_polygons", "tcnc/quasink.py:Quasink._draw_segboxes", "tcnc/quasink.py:Quasink._draw_polygon_segments", "tcnc/quasink.py:Quasink._draw_segments"]}
{"id": "C155", "title": "Quasicrystal drawings: inset tiles", "statement": "An inset tile lies inside its tile with every side at exactly the inset from the side of the tile; tiles too small for it get none; layer n is inset by n times the spacing.", "quantifier": "every parallelogram, inset and number of layers", "why_tests_cant": "Ranges over all real parallelograms and insets.", "anchors": ["tcnc/quasink.py:Quasink._inset_polygon", "tcnc/quasink.py:Quasink._draw_inset_polygons"]}
{"id": "C156", "title": "Quasicrystal drawings: drawing order", "statement": "Sorting keeps every tile, edge and segment once and orders them ring by ring around the middle, inside out or outside in, and counterclockwise in each ring.", "quantifier": "every list of tiles or segments, every middle and ring width", "why_tests_cant": "Ranges over lists of any length.", "anchors": ["tcnc/quasink.py:Quasink.run"]}
{"id": "C157", "title": "Voronoi drawings: what is drawn of the diagram", "statement": "The Voronoi extension draws, for every edge of the diagram and in their order, exactly the part of the edge that is on the page, edges without an end going on to the border; with a polygon, the parts inside it as well.", "quantifier": "every page, polygon and diagram, with any number of finite and infinite edges", "why_tests_cant": "Ranges over all diagrams and pages, and all directions of infinite edges.", "anchors": ["tcnc/voronoi.py:Voronoi._clipped_voronoi_segments", "tcnc/voronoi.py:Voronoi._clipped_poly_voronoi_segments", "tcnc/geom/voronoiclip.py:clip_voronoi_segments"]}
{"id": "C158", "title": "Voronoi drawings: Delaunay edges in a polygon", "statement": "Without a clipping polygon every Delaunay edge is drawn; with one, exactly those that are sides of the polygon or run inside it.", "quantifier": "every polygon, convex or not, and every list of edges", "why_tests_cant": "Ranges over all polygons and edges.", "anchors": ["tcnc/voronoi.py:Voronoi._clipped_delaunay_segments", "tcnc/voronoi.py:Voronoi._line_inside_hull"]}
{"id": "C159", "title": "Graph: peeled boundary polygons", "statement": "Peeling ends and returns polygons along edges of the graph, each strictly inside the one before: each goes round what is left of the graph inside the polygon before it, dead ends left out, until there is nothing left to go round.", "quantifier": "every graph, polygon and iteration order", "why_tests_cant": "Ranges over graphs with any number of nodes and layers.", "anchors": ["tcnc/geom/planargraph.py:Graph.peel_boundary_polygon"]}
{"id": "C160", "title": "Styles from templates", "statement": "Every style is its template with each name replaced by the user's setting, or by the default without one; numbers and texts are written as they are, lengths in user units of the document; a name without value raises an exception. Scaling an inline style changes only the lengths in it.", "quantifier": "every template, table of defaults, setting and page scale, for every extension", "why_tests_cant": "Ranges over all texts and settings.", "anchors": ["tcnc/svg/svg.py:SVGContext.styles_from_templates", "tcnc/svg/svg.py:SVGContext.scale_inline_style", "tcnc/polypath.py:PolyPath._styles", "tcnc/quasink.py:Quasink._styles"]}
{"id": "C161", "title": "Styles of the line grids and of the preview", "statement": "Grid lines have the colour, width and opacity asked for (one point for a width of 0, a tenth for an opacity of 0), the vertical ones those of the horizontal ones if they are to be copied; the preview has the line widths of the scale asked for; an unknown scale raises an exception.", "quantifier": "every setting, page scale and colour text", "why_tests_cant": "Ranges over all real settings and colours.", "anchors": ["tcnc/lines.py:Lines.run", "tcnc/cam/gcodesvg.py:SVGPreviewPlotter.__init__"]}
{"id": "C162", "title": "Pipe lines between two paths", "statement": "The extension turns the second path to face the first one, joins starts, ends and the vertices (along their bisectors) by guides in the order along both paths, and draws the number of lines asked for, or as many as keep a largest spacing, each dividing every guide in the same ratio. Nothing is drawn unless two paths of line segments are selected.", "quantifier": "every two paths of line segments, every number of lines and largest spacing", "why_tests_cant": "Ranges over all real paths of any length.", "anchors": ["tcnc/pipelines.py:PipeLines._get_segments", "tcnc/pipelines.py:PipeLines._get_polylines", "tcnc/pipelines.py:PipeLines._linex_segment"]}
{"id": "C163", "title": "Paths, offsets and hulls of a drawing", "statement": "The polypath extension joins the segments of the drawing to paths that use each exactly once and draws those with the number of segments asked for; the longest paths in layers of their own; the offsets of the cells; the convex hull of all points; the outer hull and the inner ones, nested. It draws what is asked for and nothing else, without an exception.", "quantifier": "every drawing, option, random choice and iteration order", "why_tests_cant": "Ranges over drawings of any size and all random outcomes.", "anchors": ["tcnc/polypath.py:PolyPath.run", "tcnc/polypath.py:PolyPath._draw_polypaths", "tcnc/polypath.py:PolyPath._draw_longest_polypaths", "tcnc/polypath.py:PolyPath._offset_polys", "tcnc/polypath.py:PolyPath._draw_polygon_hulls"]}
{"id": "C164", "title": "Counting fill colours", "statement": "The colour key shows each fill colour once with the number of elements that have it, and the total, in rows that do not overlap; every path gets the tag of its colour, equal tags mean equal fills; each colour has a layer with copies of exactly its elements; the extension finishes.", "quantifier": "every drawing, option and iteration order", "why_tests_cant": "Ranges over drawings of any size, style texts and dictionary orders.", "anchors": ["tcnc/colorcount.py:ColorCount.run", "tcnc/colorcount.py:ColorCount._draw_color_key_shapes", "tcnc/colorcount.py:ColorCount._tag_shapes", "tcnc/colorcount.py:ColorCount._copy_to_layer"]}
{"id": "C165", "title": "Ellipses inscribed in parallelograms", "statement": "ellipse_in_parallelogram returns an ellipse that touches all four sides and stays inside, the largest possible one (or a circle, in a rhombus) if asked; the quasicrystal extension draws it in every tile, smaller by the inset, inside the tile.", "quantifier": "every parallelogram, eccentricity and inset", "why_tests_cant": "Ranges over all real parallelograms and, for the largest area, over all ellipses inside.", "anchors": ["tcnc/geom/ellipse.py:ellipse_in_parallelogram", "tcnc/quasink.py:Quasink._draw_polygon_ellipses", "tcnc/quasink.py:Quasink._draw_polygon_circles"]}
{"id": "C166", "title": "Eccentricity and curvature of ellipses", "statement": "eccentricity() is the eccentricity of the ellipse with respect to its focus points; curvature(p) at a point of the ellipse is the rate at which the ellipse turns there.", "quantifier": "every ellipse with positive axes and every point of it", "why_tests_cant": "Ranges over all real ellipses and points; a derivative.", "anchors": ["tcnc/geom/ellipse.py:Ellipse.eccentricity", "tcnc/geom/ellipse.py:Ellipse.curvature", "tcnc/geom/ellipse.py:Ellipse.focus_points"]}
{"id": "C167", "title": "Quasicrystal drawings: margins and frame", "statement": "If asked for, the margins and the box around the tiling are drawn, and a frame that leaves open exactly the width and height asked for around the middle of the document; nothing otherwise.", "quantifier": "every page, margin, clipping and frame setting", "why_tests_cant": "Ranges over all real settings.", "anchors": ["tcnc/quasink.py:Quasink._draw_margins", "tcnc/quasink.py:Quasink._draw_frame"]}
{"id": "C168", "title": "Voronoi drawings: points and layers", "statement": "The Voronoi extension draws the diagram of the end points of all segments of the selected shapes, each taken once, in the layers asked for; the closed cells are the largest part of the clipped edges without loose ends; triangles join points of the diagram; sides of the polygon are kept; it finishes without an exception.", "quantifier": "every drawing, option, page, iteration order and random outcome", "why_tests_cant": "Ranges over drawings of any size, all iteration orders and random numbers; termination.", "anchors": ["tcnc/voronoi.py:Voronoi.run", "tcnc/voronoi.py:Voronoi._draw_voronoi", "tcnc/geom/planargraph.py:Graph.cull_open_edges"]}
{"id": "C169", "title": "Tolerance and rounding precision", "statement": "set_epsilon(v) sets the tolerance, its square and a rounding precision that matches it: the number of digits of the power of ten nearest to v; a value that is refused changes nothing. float_round returns the nearest multiple of that power of ten, equal to the number within the tolerance.", "quantifier": "every tolerance, earlier setting and number", "why_tests_cant": "Ranges over all real tolerances (logarithms) and numbers.", "anchors": ["tcnc/geom/const.py:set_epsilon", "tcnc/geom/const.py:float_round", "tcnc/geom/const.py:float_eq"]}
{"id": "C170", "title": "Polygon offsets", "statement": "offset_polygons accepts every polygon and returns closed polygons whose vertices are where the offset library puts them, up to the resolution of the rounding precision; an empty list if the offset cannot be performed.", "quantifier": "every polygon, offset, tolerance and behaviour of the library", "why_tests_cant": "Ranges over polygons of any size and all results of the library.", "anchors": ["tcnc/geom/polygon.py:offset_polygons", "tcnc/geom/polygon.py:poly2clipper", "tcnc/geom/polygon.py:clipper2poly", "tcnc/contrib/clipper.py:OffsetPolygons", "tcnc/contrib/clipper.py:_StripDupPts"]}
{"id": "C171", "title": "Extrema and bounding box of a curve along its chord", "statement": "find_extrema_align returns points of the curve, exactly those where it goes on along or across its chord (or stands still), and, if asked, the four corners of the smallest rectangle along the chord that contains both end points and these points.", "quantifier": "every cubic curve with two different end points", "why_tests_cant": "Ranges over all real curves; derivatives.", "anchors": ["tcnc/geom/bezier.py:CubicBezier.find_extrema_align", "tcnc/geom/bezier.py:CubicBezier.find_extrema_points", "tcnc/geom/box.py:Box.vertices"]}
{"id": "C172", "title": "Equations of lines", "statement": "slope, slope_intercept and general_equation return the coefficients of an equation that holds for exactly the points of the line; slope of a vertical line is infinite.", "quantifier": "every line through two different points", "why_tests_cant": "Ranges over all real lines and points.", "anchors": ["tcnc/geom/line.py:Line.slope", "tcnc/geom/line.py:Line.slope_intercept", "tcnc/geom/line.py:Line.general_equation"]}
{"id": "C173", "title": "Start angle of an arc and the area it cuts off", "statement": "start_angle() is the angle at which the arc starts as seen from its centre; segment_area() is the area between the arc and its chord.", "quantifier": "every arc", "why_tests_cant": "Ranges over all real arcs; the area is an integral.", "anchors": ["tcnc/geom/arc.py:Arc.start_angle", "tcnc/geom/arc.py:Arc.segment_area"]}
{"id": "C174", "title": "Values of the options", "statement": "Each option has the value that the text given last means for its type: switches in small or capital letters, angles in degrees, lengths in the unit of the document; an option that is not given has its default in the same units; a text that cannot be understood, or an unknown option, ends the program with a message that names it.", "quantifier": "every table of options, every sequence of options given and every iteration order", "why_tests_cant": "Ranges over all texts and sequences of any length.", "anchors": ["tcnc/inkscape/inkext.py:InkscapeExtension._process_options", "tcnc/inkscape/inkext.py:InkscapeExtension._post_process_options", "tcnc/inkscape/inkext.py:_check_inkbool", "tcnc/inkscape/inkext.py:_check_degrees", "tcnc/tcnc.py:Tcnc"]}
{"id": "C175", "title": "Markers of the preview", "statement": "create_simple_marker puts the marker in the definitions of the document, which it adds if there are none, and with replace it takes the place of the old one: exactly one element has its id, looking for the id finds it, nothing else changes; making the preview again leaves the document as if only the last one had been made; every marker that a style of the preview refers to is there, in the colour of the lines.", "quantifier": "every document, list of markers and styles", "why_tests_cant": "Ranges over document trees of any size and all histories of previews.", "anchors": ["tcnc/svg/svg.py:SVGContext.create_simple_marker", "tcnc/cam/gcodesvg.py:SVGPreviewPlotter.__init__"]}
{"id": "C176", "title": "Rectangles, circles and texts that are written", "statement": "A rectangle or circle that is created is read back as the same rectangle or circle, with the style given; a text is written at its place, a list of lines one below the other at the distance of the line height.", "quantifier": "every position, size, style, text and list of lines", "why_tests_cant": "Ranges over all numbers and lists of any length.", "anchors": ["tcnc/svg/svg.py:SVGContext.create_rect", "tcnc/svg/svg.py:SVGContext.create_circle", "tcnc/svg/svg.py:SVGContext.create_text"]}
{"id": "C177", "title": "Path data of single segments", "statement": "to_svg_path of a line, an arc or a curve is a text that the path parser reads back as this segment, with all numbers rounded to six digits.", "quantifier": "every line, arc and curve", "why_tests_cant": "Ranges over all numbers.", "anchors": ["tcnc/geom/line.py:Line.to_svg_path", "tcnc/geom/arc.py:Arc.to_svg_path", "tcnc/geom/bezier.py:CubicBezier.to_svg_path"]}
{"id": "C178", "title": "Corners of a polygon and the rays from them", "statement": "The corners of a polygon that are reported as sticking out (pointing in) are those that turn the way the polygon goes round (against it), each once, in whichever order the vertices are listed; the polygon without the corners that point in has the other vertices and the followers of those that point in; the ray from a corner starts at its vertex, bisects its angle, leads away from its sides and ends on the edge of the rectangle.", "quantifier": "every polygon, corner and rectangle", "why_tests_cant": "Ranges over all polygons of any size and all real coordinates.", "anchors": ["tcnc/polypath.py:PolyPath._convex_vertices", "tcnc/polypath.py:PolyPath._concave_vertices", "tcnc/polypath.py:PolyPath._get_polygon_rays"]}
{"id": "C179", "title": "Tool path lists", "statement": "biarc_approximation adds a path to the end of the tool path in order, curves as lines and arcs, and raises ToolpathException for any other segment; verify_continuity says whether every segment starts where the one before ends; is_closed says whether the last segment ends where the first one starts.", "quantifier": "every tool path and every path added to it", "why_tests_cant": "Ranges over paths of any length and all real coordinates.", "anchors": ["tcnc/cam/toolpath.py:Toolpath.biarc_approximation", "tcnc/cam/toolpath.py:Toolpath.verify_continuity", "tcnc/cam/toolpath.py:Toolpath.is_closed"]}
{"id": "C180", "title": "Position queries and tool flip", "statement": "get_current_position_xy, get_current_position and the properties X, Y, Z, A give the position of the machine in user units, None for axes that never moved; flip_tool turns the tool half a turn from then on.", "quantifier": "every history of calls of the generator", "why_tests_cant": "Ranges over histories of any length.", "anchors": ["tcnc/cam/gcode.py:GCodeGenerator.get_current_position_xy", "tcnc/cam/gcode.py:GCodeGenerator.get_current_position", "tcnc/cam/simplecam.py:SimpleCAM.flip_tool"]}
{"id": "C181", "title": "Dialogs", "statement": "Whatever is entered in the dialog of an extension, its program accepts it, and every field of the dialog is an option of the program that gets the value entered; every dialog runs a program that exists and is a well-formed document.", "quantifier": "every dialog, every way to fill it in and every order of the arguments", "why_tests_cant": "Ranges over all texts and numbers that can be entered.", "anchors": ["inkinx/tcnc.inx:inkscape-extension", "tcnc/inkscape/inkext.py:InkscapeExtension._process_options", "tcnc/tcnc.py:Tcnc"]}
{"id": "C182", "title": "Drawing a sine wave", "statement": "The sine wave extension draws one path in a layer of its own: from the origin, four curves per cycle that end at the crest, on the axis, in the trough and on the axis, a quarter of a wavelength apart, upwards from the lower edge of the page; without cycles it draws nothing.", "quantifier": "every document, amplitude, wavelength, number of cycles and origin", "why_tests_cant": "Ranges over all numbers, any number of cycles and all documents.", "anchors": ["tcnc/sinewave.py:SineWave.run", "tcnc/geom/bezier.py:bezier_sine_wave", "tcnc/svg/svg.py:SVGContext.create_polypath"]}
{"id": "C183", "title": "Simplified sub-paths and the outline of the tool marks", "statement": "A sub-path is simplified to a connected path with the same ends, some of its vertices, and within the tolerance; what is drawn leads from the first tool mark to the last one, at the offset; the outline has two sides that lead from the first tool mark to the last one; nothing is raised.", "quantifier": "every list of tool marks, offset and tolerance", "why_tests_cant": "Ranges over lists of any length and all real coordinates.", "anchors": ["tcnc/cam/gcodesvg.py:SVGPreviewPlotter._draw_subpaths", "tcnc/cam/gcodesvg.py:SVGPreviewPlotter._simplify_path", "tcnc/cam/gcodesvg.py:SVGPreviewPlotter._draw_toolmark_outline"]}
{"id": "C184", "title": "The header of the program and its settings", "statement": "A program starts with comments that name the date, the machine, the version, the number of paths and - if asked for - the settings: every option whose value is not its default, once, in the order of the table, and no other; given again as options, the settings listed have the same values.", "quantifier": "every table of options, all values, every drawing and run", "why_tests_cant": "Ranges over all values and tables and over every run.", "anchors": ["tcnc/tcnc.py:Tcnc._init_gcode", "tcnc/cam/simplecam.py:SimpleCAM.generate_header", "tcnc/cam/gcode.py:GCodeGenerator.header", "tcnc/cam/gcode.py:GCodeGenerator.add_header_comment"]}
{"id": "C185", "title": "What an extension finds when it is run", "statement": "With a file, an extension runs on that document and its lengths are in the unit of that document; without a file it runs on a new page of the width, height and unit given, or of 500 by 500 pixels, and its options have the values given.", "quantifier": "every table of options, every sequence of options given, every document and iteration order", "why_tests_cant": "Ranges over all documents and sequences of any length.", "anchors": ["tcnc/inkscape/inkext.py:InkscapeExtension.main", "tcnc/inkscape/inksvg.py:create_inkscape_document"]}
{"id": "C186", "title": "What a document says about itself and its layers", "statement": "get_parent_layer gives the layer an element is in; get_selected_layer gives the layer the document names as current and what is drawn goes there, or into the root if there is none; a renamed layer is found under its new name; layer_is_locked tells whether a layer is locked; get_document_name gives the name of the document.", "quantifier": "every document, element and layer name", "why_tests_cant": "Ranges over trees of any size and depth.", "anchors": ["tcnc/inkscape/inksvg.py:InkscapeSVGContext.get_parent_layer", "tcnc/inkscape/inksvg.py:InkscapeSVGContext.get_selected_layer", "tcnc/inkscape/inksvg.py:InkscapeSVGContext.set_layer_name", "tcnc/inkscape/inksvg.py:InkscapeSVGContext.layer_is_locked", "tcnc/inkscape/inksvg.py:InkscapeSVGContext.get_document_name"]}
{"id": "C187", "title": "What of a drawing the program depends on", "statement": "The program depends on the elements of the drawing, their order and a short list of their attributes only: two drawings that agree in these give the same programs, whatever else is in them; locked, clipped and masked layers are left out or cut as they are seen.", "quantifier": "every two drawings that agree in the attributes listed, every selection, option and run", "why_tests_cant": "Ranges over all drawings and all values of all other attributes.", "anchors": ["tcnc/tcnc.py:Tcnc.run", "tcnc/inkscape/inksvg.py:InkscapeSVGContext.get_shape_elements", "tcnc/svg/geomsvg.py:svg_element_to_geometry"]}
{"id": "C188", "title": "Lines are cut straight and arcs along their circle", "statement": "In every completed program each path is cut segment by segment with one block each: a line with a straight feed, an arc with a circular feed in its direction about its centre, and traverses are rapid moves.", "quantifier": "every document, setting and list of paths of lines and arcs", "why_tests_cant": "Ranges over all settings, over paths of any length and over the whole history of moves before each block.", "anchors": ["tcnc/cam/simplecam.py:SimpleCAM.generate_segment_gcode", "tcnc/cam/gcode.py:GCodeGenerator.feed_arc", "tcnc/cam/gcode.py:GCodeGenerator.gcode_command"]}
{"id": "C189", "title": "Each processing option changes the paths in its own way only", "statement": "With one processing option of the program on and the others off, the paths that are cut are the given ones, changed as the option says and not otherwise: sorting orders them by their start points, 'flip' turns some round, splitting cuts them apart at the junctions that are not smooth, tool width compensation and smoothing round the corners of polygons with the configured radius, the trail offset moves them forward by the offset, and the brush options add the configured strokes before and after each; an option with a width, radius or offset that is not positive changes nothing.", "quantifier": "every list of paths of lines and arcs (for the two fillet options, of lines), every value of the settings", "why_tests_cant": "Ranges over all paths and settings; the option must also reach the whole run, not only the helper that implements it.", "anchors": ["tcnc/cam/simplecam.py:SimpleCAM.generate_gcode", "tcnc/cam/simplecam.py:SimpleCAM.preprocess_paths", "tcnc/cam/paintcam.py:PaintCAM.preprocess_paths"]}
{"id": "C190", "title": "Circles and lines of a drawing are cut where they are on the page", "statement": "For a drawing of circles, lines, rectangles, polylines and path data of lines and circular arcs, with transforms that move, turn and reflect, the program cuts every line with a straight feed and every arc with a circular feed about the point of the page where its centre is, in the direction in which it appears, measured from the lower left corner of the page.", "quantifier": "every document with a size and units, every selection and setting that leaves the paths alone, all shapes of lines and arcs and all their transforms", "why_tests_cant": "Ranges over all drawings and settings, from the text of the attributes to the blocks of the program.", "anchors": ["tcnc/tcnc.py:Tcnc.run", "tcnc/svg/geomsvg.py:svg_element_to_geometry", "tcnc/geom/arc.py:Arc.transform", "tcnc/cam/simplecam.py:SimpleCAM.generate_segment_gcode"]}
{"id": "C191", "title": "Curves of a drawing are cut as tangent arcs", "statement": "For a drawing of lines, arcs and Bezier curves the program cuts the paths of the drawing in their order, lines and arcs as they are and every curve as consecutive chords and pairs of tangent arcs that follow it from its start to its end within the tolerances of the settings; it fails only if the replacement of a curve raises an exception.", "quantifier": "every document with a size and units, every selection and setting that leaves the paths alone, all shapes of lines, arcs and curves and their transforms", "why_tests_cant": "Ranges over all drawings, curves and tolerances, from the text of the attributes to the blocks of the program.", "anchors": ["tcnc/tcnc.py:Tcnc.run", "tcnc/cam/simplecam.py:SimpleCAM.path_biarc_approximation", "tcnc/geom/bezier.py:CubicBezier.biarc_approximation"]}
{"id": "C192", "title": "Fillets between lines and arcs touch both", "statement": "The fillet between a line and an arc (in either order), or between two arcs, is an arc of the radius asked for that touches both on the side to which the path turns, from a point of the first to a point of the second; if such a fillet fits between a line and an arc it is found, the path is smooth at its ends, and connecting the fillet leaves the rest of the arcs as they were.", "quantifier": "every line, every arc on its circle, every pair of arcs, every radius of at least the tolerance", "why_tests_cant": "Ranges over all lines and arcs; the corners of real drawings have irrational tangent points.", "anchors": ["tcnc/geom/fillet.py:create_fillet_arc", "tcnc/geom/fillet.py:fillet_line_arc", "tcnc/geom/fillet.py:fillet_arc_arc", "tcnc/geom/fillet.py:connect_fillet", "tcnc/cam/fillet.py:fillet_path"]}
{"id": "C193", "title": "Offset polygons have their sides moved by the offset", "statement": "Offsetting a polygon moves each of its sides by the offset and joins the moved sides at the corners as the join type says: squared off at the offset from the vertex, mitered where the sides meet unless that is beyond the limit, or rounded; where the polygon turns away it is cut back to the vertex. No vertex of the result is further from the polygon than the corners reach.", "quantifier": "every polygon, offset, join type and limit", "why_tests_cant": "Ranges over all polygons with any number of vertices and all real offsets; the corners are irrational.", "anchors": ["tcnc/geom/polygon.py:offset_polygons", "tcnc/contrib/clipper.py:OffsetPolygons", "tcnc/polypath.py:PolyPath._offset_polys"]}
{"id": "C194", "title": "Drawing of grid lines", "statement": "The grid extension never fails when it draws its paths: each path is drawn once, by one element with the style of its lines, horizontal paths before vertical ones or by turns, on one layer or on one layer for each direction as asked for; what is drawn goes without gaps from the start of the path to its end and has a line for each line of the path. Without fillets these are exactly its lines; with fillets, where there is room for them at the corners, the way drawn is smooth and made of parts of the lines and arcs of the radius asked for. Lines drawn by turns get no fillets.", "quantifier": "all lists of lines, every order, direction, connection, layer and fillet option, every radius", "why_tests_cant": "Ranges over all lists of lines and all radii; tests draw a few grids.", "anchors": ["tcnc/lines.py:Lines.run", "tcnc/lines.py:Lines.render_lines", "tcnc/geom/fillet.py:fillet_path"]}
{"id": "C195", "title": "Simplification of polylines by areas", "statement": "Simplifying a polyline by the areas of its triangles returns a polyline: some of the points, in order, with the first and the last among them.", "quantifier": "every list of points and every tolerance", "why_tests_cant": "Ranges over all lists of points and all tolerances.", "anchors": ["tcnc/geom/polygon.py:simplify_polyline_vw"]}
{"id": "C196", "title": "Tangents and normals of curves", "statement": "The tangent of a Bezier curve at t is the unit vector in the direction in which the curve moves at t (at an end with its handle on the end point, the limit of the directions towards that end), the normal is that vector turned a quarter turn to the left, and the tangent angles of the ends are the angles of the tangents there.", "quantifier": "every Bezier curve, parameter and tolerance", "why_tests_cant": "Ranges over all curves and all real parameters; directions are irrational.", "anchors": ["tcnc/geom/bezier.py:CubicBezier.tangent", "tcnc/geom/bezier.py:CubicBezier.normal", "tcnc/geom/bezier.py:CubicBezier.start_tangent_angle", "tcnc/geom/bezier.py:CubicBezier.end_tangent_angle"]}
{"id": "C197", "title": "Quasicrystal drawings: layers and info", "statement": "The quasicrystal extension draws everything that was asked for, once, and nothing else, always in the same order from the bottom up, each drawing in layers of its own with different names; the info layer, the margins and the frame replace those of an earlier run, all other layers are added. Segments are drawn only if there is a kind of segment for some tiles, a frame only with a size. The info layer shows the settings of the run, the rotation in degrees as it was given.", "quantifier": "all settings of the extension, any number of colours and kinds of boxes", "why_tests_cant": "Ranges over all combinations of some twenty options; tests run a few.", "anchors": ["tcnc/quasink.py:QuasiExtension.run", "tcnc/quasink.py:QuasiExtension._draw_info_layer"]}
