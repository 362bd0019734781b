{
 "claims": [
  {
   "property": "C01",
   "status": "partial",
   "theorems": [
    "Verif.GCode.C01_position_tracking_partial",
    "Verif.GCode.C01_refuted_rescale",
    "Verif.GCode.C01_position_names"
   ],
   "note": "Full for fixed scale/offset/unit configuration and no opaque/alt/renamed words; refuted when the scale, offset or unit changes between moves (stale suppressed words). C01_position_tracking_partial: C01 (partial). For every history of trackable calls on a fresh generator, whatever the arguments and whichever calls raised, the machine that executes the emitted program is on each of X, Y, Z, A exactly at the image of `position(axis)` — and unknown exactly when `position(axis)` is `None`. Missing from the full claim: histories that change scale/offset/unit scale between moves (refuted below), rename axes (C18), use opaque alternate tool commands, or renormalise A (C15). | C01_refuted_rescale: C01 refuted in full generality: after `rapid_move(x=1)`, changing the X scale to 2 and feeding to `x=1` again emits nothing, so the machine stays at 1 while the reported position 1 now maps to 2."
  },
  {
   "property": "C02",
   "status": "proved",
   "theorems": [
    "Verif.GCode.C02_no_drift"
   ],
   "note": "Every history of motion requests; tolerance comparison exactly as the code makes it."
  },
  {
   "property": "C03",
   "status": "partial",
   "theorems": [
    "Verif.GCode.C03_rapid_safe_height_partial",
    "Verif.GCode.C03_refuted_alt_tool_up",
    "Verif.GCode.C03_refuted_alt_tool_down"
   ],
   "note": "Proved for histories without alternate tool commands; refuted with alt_tool_up / alt_tool_down. C03_rapid_safe_height_partial: C03 (partial). After every history of trackable calls on a fresh generator, in the blocks `rapid_move` emits, each block that traverses X or Y starts and ends with the machine Z at the image of a height at or above the safe height. Missing: alternate tool commands (refuted below). | C03_refuted_alt_tool_up: C03 refuted with `alt_tool_up`: `rapid_move(x=5, y=5)` emits the alternate command and then one block that traverses X and Y while Z rises from -1: the traverse starts below the safe height 1. | C03_refuted_alt_tool_down: C03 refuted with `alt_tool_down`: the next `rapid_move` does not raise the tool (no `M9` is emitted): it traverses with the tool down."
  },
  {
   "property": "C04",
   "status": "proved",
   "theorems": [
    "Verif.GCode.C04_tool_up_commands_safe_height"
   ],
   "note": ""
  },
  {
   "property": "C05",
   "status": "partial",
   "theorems": [
    "Verif.GCode.C05_repeat_emits_nothing_partial",
    "Verif.GCode.C05_refuted_rapid_move"
   ],
   "note": "feed/feed_arc without forced words; refuted for rapid_move, which re-emits the retract. C05_repeat_emits_nothing_partial: C05 (partial). From any state: repeating `gcode_command` with a motion command (any spelling) and the same arguments, or repeating `feed` with the same arguments, leaves the whole generator state — output included — unchanged. Missing: `rapid_move` and `feed_arc`, which force words (refuted below). | C05_refuted_rapid_move: C05 refuted for `rapid_move`: repeating it re-emits the retract."
  },
  {
   "property": "C06",
   "status": "partial",
   "theorems": [
    "Verif.GCode.C06_feed_in_force_partial",
    "Verif.GCode.C06_refuted_stale_feed"
   ],
   "note": "Proved when no call silently changed the recorded feed; refuted: an F-only change is recorded but not written. C06_feed_in_force_partial: C06 (partial). In every history (no axis renaming, no rescaling, no alternate tool commands) in which no call changed the reported feed rate silently, the next `feed(…)` that writes a line leaves the controller at a feed rate equal to some reported rate `l` — raw or through the configured F scale — where `l` is the rate requested (or the documented default for the move) or within the tolerance of it. Missing: histories with a silent feed-rate change (refuted below). | C06_refuted_stale_feed: C06 refuted: the last line written carries no F word, so the controller executes a feed requested at 20 at the stale rate 10, while the generator reports 20."
  },
  {
   "property": "C07",
   "status": "proved",
   "theorems": [
    "Verif.GCode.C07_word_order"
   ],
   "note": ""
  },
  {
   "property": "C08",
   "status": "proved",
   "theorems": [
    "Verif.GCode.C08_line_numbers"
   ],
   "note": ""
  },
  {
   "property": "C09",
   "status": "proved",
   "theorems": [
    "Verif.GCode.C09_opaque_motion_refused"
   ],
   "note": ""
  },
  {
   "property": "C10",
   "status": "partial",
   "theorems": [
    "Verif.GCode.C10_comments_inert_code",
    "Verif.GCode.C10_comments_inert_text_partial",
    "Verif.GCode.C10_refuted_parenthesis",
    "Verif.GCode.C10_refuted_line_break"
   ],
   "note": "Code level for all comments; text level for comments free of \")\" and newline; refuted otherwise (comment text can inject code). C10_comments_inert_text_partial: C10 (text level, partial). Two generators with empty output that differ at most in comment settings, two histories that make the same calls apart from comments, all comment texts without `)` and line breaks. Then a reader that drops comments finds exactly the same code lines in the two program texts (percent lines aside), namely the rendered commands in order. Missing: comments containing `)` or a line break (refuted below). | C10_refuted_parenthesis: C10 refuted (parenthesis): comment text becomes an extra `X5` word of a motion line. | C10_refuted_line_break: C10 refuted (line break): comment text becomes a rapid plunge, although no motion call was made."
  },
  {
   "property": "C11",
   "status": "proved",
   "theorems": [
    "Verif.GCode.C11_dwell"
   ],
   "note": ""
  },
  {
   "property": "C12",
   "status": "proved",
   "theorems": [
    "Verif.GCode.C12_tool_down",
    "Verif.GCode.C12_spindle_history"
   ],
   "note": "tool_down call and whole-history form."
  },
  {
   "property": "C13",
   "status": "partial",
   "theorems": [
    "Verif.GCode.C13_refuted_never_raises",
    "Verif.GCode.C13_refuted",
    "Verif.GCode.C13_arc_centre_partial"
   ],
   "note": "Refuted: both radii are computed from the same offsets so the check cannot fail; the emitted centre is proved correct. C13_refuted_never_raises: C13 refuted (general form). In exact arithmetic, with a positive tolerance and a `hypot` that is symmetric under negation, `feed_arc` from a known X/Y position never raises, whatever the end point is: the check compares the start radius with itself. | C13_refuted: C13 refuted (witness): from (0, 0), an arc about (1, 0) \"ending\" at (9, 9) — eight units off its circle — is emitted without complaint. | C13_arc_centre_partial: C13 (partial). What the emitted arc does guarantee: from any state, an accepted `feed_arc` adds exactly one line, `G02` iff clockwise (else `G03`), which always carries both centre words with exactly the given offsets — so the centre the controller uses is the requested one relative to its start point. Missing: that the end point lies on the circle (refuted above)."
  },
  {
   "property": "C14",
   "status": "partial",
   "theorems": [
    "Verif.GCode.C14_first_feed_rate_partial",
    "Verif.GCode.C14_refuted"
   ],
   "note": "First call proved; every later call raises TypeError (refuted). C14_first_feed_rate_partial: C14 (partial). When no feed rate is known yet, `feed_rate(f)` writes exactly the line `F<f>` and remembers `f`, and the machine then has feed rate `f`. Missing: once a feed rate is known it raises (refuted below). | C14_refuted: C14 refuted: whenever a feed rate is known, `feed_rate` raises `TypeError` and emits nothing, for every `f` — so the default feed rate can be set only once, and a second `header()` fails."
  },
  {
   "property": "C15",
   "status": "partial",
   "theorems": [
    "Verif.GCode.C15_congruent_partial",
    "Verif.GCode.C15_refuted_range",
    "Verif.GCode.C15_refuted_word"
   ],
   "note": "Congruence mod a turn proved; range and readability of the G92 word refuted. C15_congruent_partial: C15 (partial). In exact arithmetic, from any state: `normalize_axis_angle(axis)` on a rotary axis with known angle does nothing when `|angle| ≤ 2π`; otherwise it writes one line and leaves the axis at an angle that differs from the old one by a whole number of turns. Missing: that the new angle is in `[0, 2π)` (refuted below). | C15_refuted_range: C15 refuted (range): normalising 7 radians leaves the axis below −55 radians instead of in `[0, 2π)`. | C15_refuted_word: C15 refuted (machine): the line written is `G92 A=…`, whose word is not a letter followed by a number, so the reference controller no longer knows where the axis is."
  },
  {
   "property": "C16",
   "status": "proved",
   "theorems": [
    "Verif.GCode.C16_text_accuracy",
    "Verif.GCode.C16_digits_bounded",
    "Verif.GCode.C16_precision_in_force"
   ],
   "note": ""
  },
  {
   "property": "C17",
   "status": "proved",
   "theorems": [
    "Verif.GCode.C17_unit_invariant",
    "Verif.GCode.C17_bad_unit_refused"
   ],
   "note": ""
  },
  {
   "property": "C18",
   "status": "partial",
   "theorems": [
    "Verif.GCode.C18_map_axis_partial",
    "Verif.GCode.C18_refuted_normalize"
   ],
   "note": "All histories without normalize_axis_angle; refuted with it. C18_map_axis_partial: C18 (partial). Start from any unmapped generator with empty output; install any mapping of axis letters. For every history without `normalize_axis_angle` the mapped program is the unmapped program with those letters substituted in the numeric words (same line numbers, commands, order and values), and every reported position is the same. Missing: histories that call `normalize_axis_angle` (refuted below) and mappings of non-axis letters. | C18_refuted_normalize: C18 refuted: the `G92` line of `normalize_axis_angle` names the unmapped axis `A`."
  },
  {
   "property": "C19",
   "status": "proved",
   "theorems": [
    "Verif.GCode.C19_wrapped_angles"
   ],
   "note": ""
  },
  {
   "property": "C20",
   "status": "proved",
   "theorems": [
    "Verif.GCode.C20_header_lines",
    "Verif.GCode.C20_header_percent",
    "Verif.GCode.C20_footer"
   ],
   "note": ""
  },
  {
   "property": "C21",
   "status": "proved",
   "theorems": [
    "Verif.GCode.C21_arc_needs_position"
   ],
   "note": ""
  },
  {
   "property": "C22",
   "status": "partial",
   "theorems": [
    "Verif.Cam.C22_terminates_partial",
    "Verif.Cam.C22_refuted_nonnegative"
   ],
   "note": "C22_terminates_partial: C22, the part that holds: with a negative effective step (`z_step`, or `z_depth` when `z_step` is close to zero), `generate_gcode` terminates for every path list and from every state. Missing: steps that are not negative, for which it is false (`C22_refuted_nonnegative`). | C22_refuted_nonnegative: C22 is refuted: with an effective step that is not negative — in particular with the defaults `z_depth = z_step = 0` — every run that ends, ends in an exception: no run completes."
  },
  {
   "property": "C23",
   "status": "proved",
   "theorems": [
    "Verif.Cam.C23_no_pass_below",
    "Verif.Cam.C23_no_feed_below"
   ],
   "note": ""
  },
  {
   "property": "C24",
   "status": "partial",
   "theorems": [
    "Verif.Cam.C24_last_pass_partial",
    "Verif.Cam.C24_refuted_remainder"
   ],
   "note": "C24_last_pass_partial: C24, the part that holds: a completed run with a negative effective step whose last depth is reachable in whole steps (`z_depth` is a whole multiple of the step, or the step overshoots it, or `z_depth` is above the surface) makes its last pass at exactly `z_depth`. Missing: depths that are not a multiple of the step (`C24_refuted_remainder`). | C24_refuted_remainder: C24 is refuted: whenever `z_depth` is not a whole multiple of the step (and the step does not overshoot it), no pass at all is made at `z_depth`."
  },
  {
   "property": "C25",
   "status": "proved",
   "theorems": [
    "Verif.Cam.C25_step_bound"
   ],
   "note": ""
  },
  {
   "property": "C26",
   "status": "proved",
   "theorems": [
    "Verif.Cam.C26_each_path_once",
    "Verif.Cam.C26_comments"
   ],
   "note": ""
  },
  {
   "property": "C27",
   "status": "proved",
   "theorems": [
    "Verif.Cam.C27_directional_sort",
    "Verif.Cam.C27_empty_path_raises"
   ],
   "note": ""
  },
  {
   "property": "C28",
   "status": "partial",
   "theorems": [
    "Verif.Cam.C28_flip_partial",
    "Verif.Cam.C28_refuted_first_kept",
    "Verif.Cam.C28_refuted_bezier"
   ],
   "note": "C28_flip_partial: C28 for paths of lines and arcs: `sort_paths(…, 'flip')` keeps the path order, and each path is reversed (segment order and direction) exactly when its end is strictly closer than its start to the end of the previous (already flipped) path — where the first path is compared with its own end. Missing: Bezier segments, whose reversal is wrong (`C28_refuted_bezier`). | C28_refuted_first_kept: C28, consequence for the first path: contrary to the documentation (\"the first path in the path list determines the flip order\"), the first path is always reversed unless it is closed. | C28_refuted_bezier: C28 is refuted for Bezier curves: the reversed curve of a path from (0, 0) to (3, 0) ends at the first control point (1, 1), not at the start (0, 0)."
  },
  {
   "property": "C29",
   "status": "partial",
   "theorems": [
    "Verif.Cam.C29_no_invention_partial",
    "Verif.Cam.C29_refuted_always_loses",
    "Verif.Cam.C29_refuted_witness"
   ],
   "note": "C29_no_invention_partial: C29, the part that holds: whatever `sort_paths(…, 'optimize')` returns consists of input paths, none twice, each unchanged or reversed. Missing: completeness, which is false (`C29_refuted_always_loses`). | C29_refuted_always_loses: C29 is refuted for every input: `sort_paths(…, 'optimize')` either raises or returns strictly fewer paths than it was given (the paths of the last band are dropped). | C29_refuted_witness: Witness: of three parallel strokes only the first band survives; two strokes in one band raise `IndexError`."
  },
  {
   "property": "C30",
   "status": "partial",
   "theorems": [
    "Verif.Cam.C30_split_partial",
    "Verif.Cam.C30_refuted_wraparound"
   ],
   "note": "C30_split_partial: C30, with tangent continuity understood as numerical agreement of the tangent angles: `split_path_g1` cuts a non-empty path into non-empty consecutive pieces; all junctions inside a piece are smooth and unmarked, all junctions between pieces are not. Missing: junctions that are smooth modulo a whole turn (`C30_refuted_wraparound`). | C30_refuted_wraparound: C30 is refuted at the branch cut: a line to the left has tangent angle `π`, an arc that continues it has tangent angle `-π`, so `split_path_g1` cuts a path that is perfectly tangent-continuous."
  },
  {
   "property": "C31",
   "status": "proved",
   "theorems": [
    "Verif.Cam.C31_only_lines_and_arcs",
    "Verif.Cam.C31_in_place",
    "Verif.Cam.C31_other_raises"
   ],
   "note": ""
  },
  {
   "property": "C32",
   "status": "proved",
   "theorems": [
    "Verif.Geom.C32_rotation_range",
    "Verif.Geom.C32_rotation_target"
   ],
   "note": ""
  },
  {
   "property": "C33",
   "status": "proved",
   "theorems": [
    "Verif.Geom.C33_normalize_angle",
    "Verif.Geom.C33_normalize_angle_idempotent"
   ],
   "note": ""
  },
  {
   "property": "C34",
   "status": "proved",
   "theorems": [
    "Verif.Cam.C34_tangential",
    "Verif.Cam.C34_rapid",
    "Verif.Cam.C34_off"
   ],
   "note": ""
  },
  {
   "property": "C35",
   "status": "proved",
   "theorems": [
    "Verif.Cam.C35_travel",
    "Verif.Cam.C35_segments"
   ],
   "note": ""
  },
  {
   "property": "C36",
   "status": "partial",
   "theorems": [
    "Verif.Cam.C36_brush_partial",
    "Verif.Cam.C36_connected",
    "Verif.Cam.C36_refuted_unbound"
   ],
   "note": "C36_brush_partial: C36: whenever `process_brush_path` returns, it has kept the stroke `p` and put straight segments before and after it: before it the soft landing and the landing strip along the start direction (the soft landing coming down from `z_step`), after it the overshoot and the lift-off (to Z 0) along the end direction, with exactly the configured lengths and without gaps. Missing: the settings for which it raises (`C36_refuted_unbound`). | C36_refuted_unbound: C36 is refuted for some settings: with overshoot enabled at a length not above the tolerance and soft landing on, every non-empty stroke raises `UnboundLocalError`."
  },
  {
   "property": "C37",
   "status": "partial",
   "theorems": [
    "Verif.Cam.C37_refuted_reload"
   ],
   "note": "C37_refuted_reload: C37 is refuted: with brush reload enabled no run that has anything to cut completes — every one ends in an exception."
  },
  {
   "property": "C38",
   "status": "partial",
   "theorems": [
    "Verif.Cam.C38_start",
    "Verif.Cam.C38_offset_partial",
    "Verif.Cam.C38_connected",
    "Verif.Cam.C38_zero_offset",
    "Verif.Cam.C38_refuted_degenerate"
   ],
   "note": "C38_offset_partial: C38 for offsets that are not (close to) zero and paths of lines and arcs with at least one segment of positive length: `offset_path` returns, and the result consists of the segments of positive length, each moved forward by the offset, in the input order, with a bridge (a line, or an arc about the corner whose radius is the offset) wherever two of them do not meet. Missing: paths without a segment of positive length (`C38_refuted_degenerate`). | C38_refuted_degenerate: C38 is refuted for paths all of whose segments are (numerically) of length zero, for instance a single full circle: `IndexError`."
  },
  {
   "property": "C39",
   "status": "proved",
   "theorems": [
    "Verif.Cam.C39_hints",
    "Verif.Cam.C39_adjusted",
    "Verif.Cam.C39_fillet",
    "Verif.Cam.C39_only_between_adjacent",
    "Verif.Cam.C39_closed"
   ],
   "note": ""
  },
  {
   "property": "C40",
   "status": "proved",
   "theorems": [
    "Verif.Cam.C40_offset_arc_concentric"
   ],
   "note": ""
  },
  {
   "property": "C41",
   "status": "proved",
   "theorems": [
    "Verif.Geom.C41_compose"
   ],
   "note": ""
  },
  {
   "property": "C42",
   "status": "proved",
   "theorems": [
    "Verif.Geom.C42_rotation"
   ],
   "note": ""
  },
  {
   "property": "C43",
   "status": "proved",
   "theorems": [
    "Verif.Geom.C43_scale"
   ],
   "note": ""
  },
  {
   "property": "C44",
   "status": "partial",
   "theorems": [
    "Verif.Geom.C44_refuted_transitivity",
    "Verif.Geom.C44_point_equality_partial"
   ],
   "note": "C44_refuted_transitivity: C44 is false as stated: approximate equality is not transitive, for any tolerance. | C44_point_equality_partial: C44, the part that holds: reflexive, symmetric (the converse comparison gives the same answer, in any arithmetic where squares of opposite differences agree), and transitive up to doubling the tolerance. Missing: transitivity at the same tolerance, which is refuted above."
  },
  {
   "property": "C45",
   "status": "partial",
   "theorems": [
    "Verif.Geom.C45_refuted",
    "Verif.Geom.C45_hash_partial"
   ],
   "note": "C45_refuted: C45 is false: these two points compare equal at the default tolerance but hash differently, so a set or dictionary keeps both. | C45_hash_partial: C45, the part that holds: the hash only depends on the integer part of the rounded coordinates, so points whose rounded coordinates have the same integer parts hash equally. Missing: points that compare equal across an integer boundary (refuted above)."
  },
  {
   "property": "C46",
   "status": "proved",
   "theorems": [
    "Verif.Geom.C46_segment_equality",
    "Verif.Geom.C46_segment_hash"
   ],
   "note": ""
  },
  {
   "property": "C47",
   "status": "proved",
   "theorems": [
    "Verif.Geom.C47_box_normalised"
   ],
   "note": ""
  },
  {
   "property": "C48",
   "status": "proved",
   "theorems": [
    "Verif.Geom.C48_box_intersection",
    "Verif.Geom.C48_box_union",
    "Verif.Geom.C48_box_algebra"
   ],
   "note": ""
  },
  {
   "property": "C49",
   "status": "proved",
   "theorems": [
    "Verif.Geom.C49_clip_exact",
    "Verif.Geom.C49_clip_within_eps"
   ],
   "note": ""
  },
  {
   "property": "C50",
   "status": "partial",
   "theorems": [
    "Verif.Geom.C50_from_points",
    "Verif.Geom.C50_refuted_polygon_bounding_box",
    "Verif.Geom.C50_polygon_bounding_box_partial"
   ],
   "note": "C50_refuted_polygon_bounding_box: C50 is false for `polygon.bounding_box`: a polygon entirely in the negative quadrant gets a box that is not its bounding box, for every positive initial maximum. | C50_polygon_bounding_box_partial: C50 for `polygon.bounding_box`, the part that holds: the box contains every point whose coordinates do not exceed the largest float, and it is the bounding box if some point reaches at least `fmin` on each axis and some point is below `fmax`. Missing: polygons with a negative maximum on an axis (refuted above)."
  },
  {
   "property": "C51",
   "status": "partial",
   "theorems": [
    "Verif.Geom.C51_area_invariance",
    "Verif.Geom.C51_refuted_sign"
   ],
   "note": "C51_refuted_sign: C51 (the documented sign) is false: for every polygon that winds *counter-clockwise* around some point the function returns a negative number, and for every one that winds clockwise a positive one."
  },
  {
   "property": "C52",
   "status": "proved",
   "theorems": [
    "Verif.Geom.C52_centroid",
    "Verif.Geom.C52_centroid_small",
    "Verif.Geom.C52_centroid_triangle"
   ],
   "note": ""
  },
  {
   "property": "C53",
   "status": "proved",
   "theorems": [
    "Verif.Geom.C53_point_inside_invariance",
    "Verif.Geom.C53_point_inside_outside"
   ],
   "note": ""
  },
  {
   "property": "C54",
   "status": "proved",
   "theorems": [
    "Verif.Geom.C54_rdp_points",
    "Verif.Geom.C54_rdp"
   ],
   "note": ""
  },
  {
   "property": "C55",
   "status": "proved",
   "theorems": [
    "Verif.Geom.C55_intersection"
   ],
   "note": ""
  },
  {
   "property": "C56",
   "status": "partial",
   "theorems": [
    "Verif.Geom.C56_refuted",
    "Verif.Geom.C56_same_side_partial"
   ],
   "note": "C56_refuted: C56 is false: for every line and every pair of points on different sides of it, `same_side` answers `True` in one order of the arguments (so it is not symmetric either). | C56_same_side_partial: C56, the part that holds: points on the same side are always reported so, and the answer is right whenever the first point is strictly right of the line or the second is on its left. Missing: first left, second right."
  },
  {
   "property": "C57",
   "status": "proved",
   "theorems": [
    "Verif.Geom.C57_projection"
   ],
   "note": ""
  },
  {
   "property": "C58",
   "status": "proved",
   "theorems": [
    "Verif.Geom.C58_shift",
    "Verif.Geom.C58_extend",
    "Verif.Geom.C58_degenerate",
    "Verif.Geom.C58_offset",
    "Verif.Geom.C58_subdivide",
    "Verif.Geom.C58_flipped"
   ],
   "note": ""
  },
  {
   "property": "C59",
   "status": "proved",
   "theorems": [
    "Verif.Geom.C59_calc_center"
   ],
   "note": ""
  },
  {
   "property": "C60",
   "status": "partial",
   "theorems": [
    "Verif.Geom.C60_at_point_partial",
    "Verif.Geom.C60_refuted_at_point",
    "Verif.Geom.C60_refuted",
    "Verif.Geom.C60_subdivide_partial"
   ],
   "note": "C60_at_point_partial: C60, `subdivide_at_point`: for a point on the arc, less than half a turn from its start and not too near to its ends, the result is two arcs that join there, with the same centre and radius, each of which sweeps from its start to its end, and whose angles add up to the angle of the arc. For points further along the arc see `C60_refuted_at_point`. | C60_refuted_at_point: C60 as stated is false of `subdivide_at_point`: for every point of a counter-clockwise arc that is more than half a turn from its start, the first part goes clockwise, outside of the arc, and the second part is longer than the whole arc. | C60_refuted: C60 is false: a clockwise arc is never divided, whatever `mu` is. | C60_subdivide_partial: C60, the part that holds: for counter-clockwise arcs and `EPSILON ≤ mu < 1` (with a first part of at least `EPSILON`), the result is two arcs with the same centre, radius and direction that join at the start point turned by `mu` times the sweep, keep the outer end points, and whose sweeps are `mu` and `1 - mu` of the original. Missing: clockwise arcs (refuted above)."
  },
  {
   "property": "C61",
   "status": "partial",
   "theorems": [
    "Verif.Geom.C61_isometry_partial",
    "Verif.Geom.C61_refuted_exchange",
    "Verif.Geom.C61_refuted",
    "Verif.Geom.C61_refuted_witness",
    "Verif.Geom.C61_transform_partial"
   ],
   "note": "C61_isometry_partial: C61, isometries: an arc of at most half a turn, transformed by an isometry (a translation, rotation or reflection, in any combination) that does not exchange the axes, is exactly its image: the ends and the centre are the images, the radius is the same, and the angle is the same or, for a reflection, the opposite one, so that it is again the arc from the one end to the other. | C61_refuted_exchange: C61 fails for reflections that exchange the axes: the arc is transformed with the wrong direction, and bulges to the other side of its chord: a quarter turn about the origin, from `(1, 0)` to `(0, 1)`, exchanged by `x ↔ y`, goes from `(0, 1)` to `(1, 0)` about `(1, 1)` instead of the origin. | C61_refuted: C61 is false: scaling an arc uniformly by `s` multiplies the radius by `s²` (when the call succeeds at all). | C61_refuted_witness: C61: the refutation is not vacuous: the unit half circle scaled by `2` gets radius `4` (and one scaled by `1/2` raises a domain error). | C61_transform_partial: C61, the part that holds: under a transform with equal diagonal magnitudes that preserves the distance between the end points (translations, rotations, axis mirrorings), the arc keeps its radius, its end points are the transformed ones, and the centre is at distance `radius` from both. Missing: every other scale factor."
  },
  {
   "property": "C62",
   "status": "proved",
   "theorems": [
    "Verif.Geom.C62_points_on_arc"
   ],
   "note": ""
  },
  {
   "property": "C63",
   "status": "proved",
   "theorems": [
    "Verif.Geom.C63_point_at",
    "Verif.Geom.C63_subdivide"
   ],
   "note": ""
  },
  {
   "property": "C64",
   "status": "proved",
   "theorems": [
    "Verif.Geom.C64_from_quadratic"
   ],
   "note": ""
  },
  {
   "property": "C65",
   "status": "proved",
   "theorems": [
    "Verif.Graph.C65_history",
    "Verif.Graph.C65_exceptions"
   ],
   "note": ""
  },
  {
   "property": "C66",
   "status": "proved",
   "theorems": [
    "Verif.Graph.C66_cull",
    "Verif.Graph.C66_order_independent"
   ],
   "note": ""
  },
  {
   "property": "C67",
   "status": "partial",
   "theorems": [
    "Verif.Graph.C67_build_paths_partial",
    "Verif.Graph.C67_refuted_empty"
   ],
   "note": "C67_build_paths_partial: C67, for every graph with at least one edge, every strategy, every outcome of the random choices and every start edge of the graph (or none): `build_paths` terminates without an exception; the paths run along edges of the graph, together they use every edge exactly once, every path has at least one edge, and they are sorted by decreasing length. Missing: the graph without edges (`C67_refuted_empty`). | C67_refuted_empty: C67 is refuted for the graph without edges: without a start edge `build_paths` raises `IndexError` (there is nothing to choose from)."
  },
  {
   "property": "C68",
   "status": "partial",
   "theorems": [
    "Verif.Svg.C68_parse_partial",
    "Verif.Svg.C68_refuted"
   ],
   "note": "C68_parse_partial: C68, for every text: everything `parse_path` yields is a canonical command (`M`, `L`, `C`, `Q`, `A`) with the right number of parameters, the first one is `M`, and the only exception it can raise is `ValueError`, and that only if the text contains a number token that is not a number. Missing: the claim says no exception at all (`C68_refuted`). | C68_refuted: C68 is refuted: a truncated exponent raises `ValueError`, although the documentation promises that no exceptions are raised; so does an arc flag written as `1.0`."
  },
  {
   "property": "C69",
   "status": "proved",
   "theorems": [
    "Verif.Svg.C69_relative"
   ],
   "note": ""
  },
  {
   "property": "C70",
   "status": "partial",
   "theorems": [
    "Verif.Svg.C70_smooth_partial",
    "Verif.Svg.C70_refuted"
   ],
   "note": "C70_smooth_partial: C70, for every path in which each `S` directly follows a `C` and each `T` a `Q`: `parse_path` yields exactly the canonical absolute commands the path means by SVG 1.1, with the reflected control points. Missing: `S` and `T` after anything else (`C70_refuted`). | C70_refuted: C70 is refuted: an `S` after an `S`, a `T` after a `T` and an `S` after an `L` use a wrong control point."
  },
  {
   "property": "C71",
   "status": "proved",
   "theorems": [
    "Verif.Svg.C71_close"
   ],
   "note": ""
  },
  {
   "property": "C72",
   "status": "proved",
   "theorems": [
    "Verif.Svg.C72_round_trip"
   ],
   "note": ""
  },
  {
   "property": "C73",
   "status": "partial",
   "theorems": [
    "Verif.Css.C73_hex_value",
    "Verif.Css.C73_names",
    "Verif.Css.C73_range_partial",
    "Verif.Css.C73_round_trip",
    "Verif.Css.C73_convert_text_partial",
    "Verif.Css.C73_convert_number_partial",
    "Verif.Css.C73_refuted"
   ],
   "note": "C73_range_partial: C73, parsing: for every text whose `#` form contains no minus sign, and if no percentage overflows, `csscolor_to_rgb` returns three (or four, with alpha) channels in 0..255; exactly three, as a tuple, unless the text begins with `rgb`. Missing: `#` colours with a minus sign and infinite percentages (`C73_refuted`). | C73_convert_text_partial: C73, conversion of text: `csscolor_to_cssrgb` returns `#rrggbb` for every text that does not begin with `rgb` and whose `#` form contains no minus sign. Missing: `rgb(...)`, which always raises `TypeError` (`C73_refuted`). | C73_convert_number_partial: C73, conversion of numbers: `csscolor_to_cssrgb` returns `#rrggbb` for every number that is not negative. | C73_refuted: C73 is refuted: a minus sign in a hexadecimal colour gives negative channels; an `rgb(...)` colour cannot be converted (`TypeError`); a negative number does not give `#rrggbb`; an infinite percentage raises `OverflowError`."
  },
  {
   "property": "C74",
   "status": "partial",
   "theorems": [
    "Verif.Css.C74_meaning_partial",
    "Verif.Css.C74_round_trip_partial",
    "Verif.Css.C74_refuted"
   ],
   "note": "C74_meaning_partial: C74, meaning: a style text of declarations and empty pieces is read without an error; every property gets the value of the last declaration that names it and has a value, without the white space around it; nothing else gets a value, no name occurs twice and the empty name not at all. Missing: names or values that contain a colon (`C74_refuted`). | C74_round_trip_partial: C74: formatting a style dictionary (its items in any order) and parsing the text returns the dictionary, for all names and values that are not empty, have no blanks around them and contain neither `;` nor `:`. Missing: values that contain `:` (`C74_refuted`). | C74_refuted: C74 is refuted: a value with a colon (a URL) makes parsing raise `ValueError`."
  },
  {
   "property": "C75",
   "status": "partial",
   "theorems": [
    "Verif.Svg.C75_convert",
    "Verif.Svg.C75_to_user_units",
    "Verif.Svg.C75_round_trip_partial",
    "Verif.Svg.C75_multiplicative",
    "Verif.Svg.C75_refuted"
   ],
   "note": "C75_round_trip_partial: C75, there and back, for values given as text (see `C75_refuted` for numbers): for every written number of user units, unit and view scale, `uu2unit` gives a number that `unit2uu` turns back into the number of user units; and what `unit2uu` gives, written as text, is turned back by `uu2unit`. | C75_refuted: The part of C75 that fails: `uu2unit` takes \"a float value in user units\" according to its documentation, but for every number it raises `TypeError`; so no value can be converted back."
  },
  {
   "property": "C76",
   "status": "proved",
   "theorems": [
    "Verif.Svg.C76_visible",
    "Verif.Svg.C76_visible_alone"
   ],
   "note": ""
  },
  {
   "property": "C77",
   "status": "partial",
   "theorems": [
    "Verif.Svg.C77_transform_list_partial",
    "Verif.Svg.C77_element_transform_partial",
    "Verif.Svg.C77_refuted"
   ],
   "note": "C77_transform_list_partial: C77, one attribute (values spelled with separators; see `C77_refuted`): for every `transform` attribute that is a list of transforms with the numbers of values SVG allows, parsing succeeds and the matrix moves every point as the list of transforms does, the last one first. | C77_element_transform_partial: C77, ancestors: for every element and every chain of ancestors, nearest first, the transform of the element moves a point by its own list first, then by that of the nearest ancestor, and so on up to the outermost. | C77_refuted: The part of C77 that fails: SVG allows leaving out the blank before a sign, but `translate(10-20)` raises `ValueError`."
  },
  {
   "property": "C78",
   "status": "partial",
   "theorems": [
    "Verif.Svg.C78_rect",
    "Verif.Svg.C78_circle",
    "Verif.Svg.C78_polyline",
    "Verif.Svg.C78_ellipse",
    "Verif.Svg.C78_transform",
    "Verif.Svg.C78_refuted"
   ],
   "note": "C78_refuted: C78 as stated is false of the code: every line element with a transform raises `AttributeError`; every polygon of three or more points whose last side is not its first side raises `TypeError` (instead of being closed); a polyline without points raises `IndexError`; and a shape with a parent transform but no transform of its own raises `TypeError`."
  },
  {
   "property": "C79",
   "status": "partial",
   "theorems": [
    "Verif.Output.C79_new_name_partial",
    "Verif.Output.C79_plain_name",
    "Verif.Output.C79_defaults",
    "Verif.Output.C79_refuted"
   ],
   "note": "C79_new_name_partial: C79, for a directory that lists the files of the series in ascending order and has only numbers of four digits in it (see `C79_refuted`): the returned name is not in the directory, and its number is larger than those of all files of the series. | C79_refuted: The part of C79 that fails: `os.listdir` returns names in arbitrary order, and then the newest file may be overwritten; a file of the series whose number has fewer digits makes the name collide with another file or leads to an unbound variable."
  },
  {
   "property": "C80",
   "status": "partial",
   "theorems": [
    "Verif.Geom.C80_center_sweep_partial",
    "Verif.Geom.C80_refuted"
   ],
   "note": "C80_center_sweep_partial: C80, the part that holds. If the chord matches the radius and sweep (`chord = 2 r |sin(angle/2)|`) and the sweep is at most half a turn, then turning the start point about the computed centre by the sweep angle gives the end point. Missing: sweeps of more than half a turn, refuted below. | C80_refuted: C80 is false for sweeps of more than half a turn: for the three-quarter circle of radius 1 about the origin from `(1, 0)` to `(0, -1)` the computed centre is `(1, -1)`, and turning the start point about it by `3π/2` gives `(2, -1)`."
  },
  {
   "property": "C81",
   "status": "proved",
   "theorems": [
    "Verif.Cam.C81_no_exception"
   ],
   "note": ""
  },
  {
   "property": "C82",
   "status": "proved",
   "theorems": [
    "Verif.Cam.C82_plain_unchanged"
   ],
   "note": ""
  },
  {
   "property": "C83",
   "status": "partial",
   "theorems": [
    "Verif.Svg.C83_separators_partial",
    "Verif.Svg.C83_same_parse_partial",
    "Verif.Svg.C83_refuted"
   ],
   "note": "C83_separators_partial: C83: path data is split into commands and numbers as written, whatever blanks and commas stand between them and wherever they are left out as the SVG grammar allows (`1-2`, `.5.5`, `L1 2`). Missing: a point directly after an exponent (`1e3.5`, `C83_refuted`). | C83_same_parse_partial: Two texts that spell the same items are parsed alike. | C83_refuted: C83 is refuted for `1e3.5`, which the SVG grammar reads as `1e3` and `.5`: the tokenizer makes one token of it, which is not a number."
  },
  {
   "property": "C84",
   "status": "proved",
   "theorems": [
    "Verif.Svg.C84_explode"
   ],
   "note": ""
  },
  {
   "property": "C85",
   "status": "partial",
   "theorems": [
    "Verif.Svg.C85_latest_partial",
    "Verif.Svg.C85_contexts_partial",
    "Verif.Svg.C85_refuted"
   ],
   "note": "C85_latest_partial: C85, the part that holds of a context in use before another one is created: after any history of contexts, a context created with a font size has that as its `em`, and as its `ex` the x-height given, else the font size. | C85_contexts_partial: C85, what holds: whatever contexts are created in whatever order, the size of every unit other than `em` and `ex` stays; and if no font size and no x-height is ever given, the sizes of all units stay as they are at the start. | C85_refuted: The part of C85 that fails: a context is created with font size 20; then another one, for another document, with font size 10. The first context then converts `1em` to 10 instead of 20 user units, and a third context, without a font size, too."
  },
  {
   "property": "C86",
   "status": "partial",
   "theorems": [
    "Verif.Svg.C86_scale_partial",
    "Verif.Svg.C86_refuted"
   ],
   "note": "C86_scale_partial: C86, for a `viewBox` with origin 0,0 (see `C86_refuted` for others): for all positive widths and heights with units, the context is created exactly if the two scales agree to the tolerance; then the width attribute, converted to user units, is the width of the `viewBox`. | C86_refuted: The part of C86 that fails: the third and fourth number of a `viewBox` are its width and height, but the code takes them for the far corner. With `width=\"100\" height=\"100\" viewBox=\"10 10 100 100\"` the width is 90 user units instead of 100, and with `viewBox=\"10 0 100 100\"` the document is rejected."
  },
  {
   "property": "C87",
   "status": "partial",
   "theorems": [
    "Verif.Svg.C87_geometry_partial",
    "Verif.Svg.C87_refuted"
   ],
   "note": "C87_geometry_partial: C87, for every path text in which each arc has equal radii (or one that is zero) and does not end where it starts: `parse_path_geom` raises only if `parse_path` does; it returns one list per subpath that draws something, with one segment per drawing command, each starting at the pen and ending at the end point of the command; so the segments of each list are connected. (Arcs that are not circular are excluded, see `C87_refuted`; for arcs with the large arc flag only the end points are as they should.) | C87_refuted: C87 as stated is false of the code. An elliptical arc whose flags are equal can vanish: this path (the arc is in a subpath whose first point is (0, 0)) becomes just the line from the end of the arc, and nothing starts at (0, 0). And an arc to the pen position, which SVG says to ignore, raises `ZeroDivisionError`."
  },
  {
   "property": "C88",
   "status": "partial",
   "theorems": [
    "Verif.Geom.C88_small_arc_partial",
    "Verif.Geom.C88_ends_partial",
    "Verif.Geom.C88_refuted"
   ],
   "note": "C88_small_arc_partial: C88, circular arcs that are not large: for end points less than a diameter apart (and a chord of at least the tolerance times the radius), the computed centre is at distance `r` from both ends, turning by the computed sweep about it takes the start to the end, the sweep is less than half a turn, and it is in the direction of positive angles exactly if the sweep flag is set. | C88_ends_partial: C88, ellipses: for different end points and radii of at least the tolerance, an arc is returned; both its ends are on the ellipse with the returned centre and radii turned by `-phi` (instead of `phi`), and the radii are the given ones, enlarged by a common factor `k ≥ 1` that is 1 if the end points are near enough. | C88_refuted: C88 as stated is false of the code: for every circle and every two points on it less than a diameter apart, the arc returned for the large arc flag is not large and goes the wrong way; for no input at all is the sweep of the result more than half a turn; equal end points raise `ZeroDivisionError`; and the rotation is applied the wrong way round, so that the end points may be off the ellipse."
  },
  {
   "property": "C89",
   "status": "partial",
   "theorems": [
    "Verif.Geom.C89_point_at",
    "Verif.Geom.C89_construct",
    "Verif.Geom.C89_point_inside_partial",
    "Verif.Geom.C89_refuted",
    "Verif.Geom.C89_focus",
    "Verif.Geom.C89_pointt_partial"
   ],
   "note": "C89_point_inside_partial: C89, `point_inside` (for a rotation that is zero or at least the tolerance; a smaller one is ignored): the answer is right for every point. | C89_refuted: The part of C89 that fails: a rotation smaller than the tolerance is ignored, however long the ellipse: for every tolerance there is an ellipse and a point clearly outside of it that is reported to be inside. | C89_pointt_partial: C89, `pointt`: for every point of the ellipse that is not within the tolerance of `point_at(0)`, `pointt` returns a parameter at which `point_at` is the point (for axes that are equal or differ by at least the tolerance)."
  },
  {
   "property": "C90",
   "status": "partial",
   "theorems": [
    "Verif.Geom.C90_bezier_ellipse_partial",
    "Verif.Geom.C90_refuted"
   ],
   "note": "C90_bezier_ellipse_partial: C90: for a sweep that is not negative, the loop ends and the curves follow the ellipse from its start parameter to its end parameter in steps of at most a quarter turn, at most one more of them than there are whole quarter turns: the first starts at the start, each one starts where the one before ends, the last ends at the end, and each one touches the ellipse at its ends. | C90_refuted: C90 as stated is false of the code: for every arc with negative sweep (drawn clockwise) there is no curve at all."
  },
  {
   "property": "C91",
   "status": "partial",
   "theorems": [
    "Verif.Geom.C91_intersect_circle_partial",
    "Verif.Geom.C91_refuted"
   ],
   "note": "C91_intersect_circle_partial: C91: for centres at least the tolerance apart, and radii whose sum differs from the distance by at least the tolerance, exactly the points on both circles are returned. | C91_refuted: C91 as stated is false of the code: for circles that touch from outside (with any two different radii that are not too small) the one point returned is on neither."
  },
  {
   "property": "C92",
   "status": "proved",
   "theorems": [
    "Verif.Geom.C92_bezier_circle",
    "Verif.Geom.C92_bezier_circular_arc",
    "Verif.Geom.C92_sine_wave"
   ],
   "note": ""
  },
  {
   "property": "C93",
   "status": "partial",
   "theorems": [
    "Verif.Geom.C93_offset_partial",
    "Verif.Geom.C93_refuted"
   ],
   "note": "C93_offset_partial: C93: for every arc with a positive radius whose ends are on its circle, and every distance that does not take it beyond its centre, the offset arc has the same centre and angle, the radius changed by the distance, and its ends are on the rays from the centre through the ends of the arc; it sweeps from one to the other. | C93_refuted: C93 as stated is false of the code: offset by more than the radius towards the centre, the arc has a negative radius."
  },
  {
   "property": "C94",
   "status": "partial",
   "theorems": [
    "Verif.Geom.C94_tangent_arc_partial",
    "Verif.Geom.C94_refuted"
   ],
   "note": "C94_tangent_arc_partial: C94, for a tangent that makes at most a right angle with the secant but does not point along it (and does not end near the origin or near the second point): the arc starts at the first point in the direction of the tangent and ends at the second point, turning about its centre by its angle, which is at most half a turn; reversed, it starts at the second point and arrives at the first one in the opposite direction. | C94_refuted: C94 as stated is false of the code: the arc that should leave (1, 0) upwards and go three quarters around the origin to (0, -1) is put about the centre (1, -1), and leaves to the left; a tangent that points straight at the second point raises `ZeroDivisionError`; and a tangent point near the origin is taken for a degenerate one, wherever the points are."
  },
  {
   "property": "C95",
   "status": "partial",
   "theorems": [
    "Verif.Geom.C95_refuted_corner",
    "Verif.Geom.C95_biarc_partial",
    "Verif.Geom.C95_refuted",
    "Verif.Geom.C95_refuted_origin"
   ],
   "note": "C95_refuted_corner: C95, the exceptions again, with a curve inside the page: an arch that opens to the right and whose first handle is in the corner of the page raises `AttributeError` - for every number of subdivisions, every tolerance, and with small constants. | C95_biarc_partial: C95: whatever `biarc_approximation` returns replaces consecutive parts of the curve, from its start to its end, each by its chord, by two tangent arcs, or (only if it is degenerate) by nothing. `GoodPiece` says how they agree with the curve. Missing: parts between samples, samples in whose direction the arc has no point, parts that cannot be divided further (shorter than the last argument of `GoodPiece`), and the absence of errors. | C95_refuted: C95 as stated is false of the code: a closed curve, however large, is replaced by nothing at all. | C95_refuted_origin: C95 also fails for the exceptions: an ordinary round arch, wherever else it is replaced by two quarter circles, raises `AttributeError` if its first handle is at the origin of the coordinates - for every number of subdivisions, every tolerance, and with small constants."
  },
  {
   "property": "C96",
   "status": "partial",
   "theorems": [
    "Verif.Geom.C96_convex_hull_partial",
    "Verif.Geom.C96_refuted_close_points"
   ],
   "note": "C96_convex_hull_partial: C96. `convex_hull` returns the convex hull of its points, counter-clockwise, whatever their number, order, repetitions and collinearities, as long as different points are at least the comparison tolerance apart. | C96_refuted_close_points: C96 without the distance condition is false: of two points closer than the tolerance only one is kept, so the other one is not in the hull."
  },
  {
   "property": "C97",
   "status": "partial",
   "theorems": [
    "Verif.Geom.C97_refuted",
    "Verif.Geom.C97_single_partial"
   ],
   "note": "C97_refuted: C97 is false: `convex_hull_chan` raises `TypeError` for every list of two points or more. | C97_single_partial: C97, the part that holds: the hull of one point is that point."
  },
  {
   "property": "C98",
   "status": "partial",
   "theorems": [
    "Verif.Cam.C98_draws_partial",
    "Verif.Cam.C98_follows_tool_partial",
    "Verif.Cam.C98_refuted_unknown",
    "Verif.Cam.C98_refuted_first_move"
   ],
   "note": "C98_draws_partial: C98 (drawing), the part that holds: every call that does not raise adds to the preview exactly the line or arc of that call, from the location shown before to the new one: a rapid move a move line, a feed a feed line (unless it is not longer than the resolution), an arc an arc in the same direction whose radius is the distance from the commanded centre. Missing: what the arc looks like (C99), and calls of `gcode_command` itself, which the preview does not see. | C98_follows_tool_partial: C98 (location), the part that holds: after every history of calls none of which raises and one of which moves the tool, the location at which the preview continues to draw is, in X and in Y, the reported position of the tool, or not farther from it than the comparison tolerance. | C98_refuted_unknown: The part of C98 that fails: a move that does not name X while X is unknown (or Y while Y is unknown) raises `TypeError` in the plotter, although the generator accepts and writes it. | C98_refuted_first_move: The hypotheses of `C98_refuted_unknown` are met by the first `rapid_move(z=5)` of a program, which is written."
  },
  {
   "property": "C99",
   "status": "partial",
   "theorems": [
    "Verif.Cam.C99_drawn_arc_partial",
    "Verif.Cam.C99_refuted_long"
   ],
   "note": "C99_drawn_arc_partial: C99, the part that holds: if the preview shows the tool where it is, and an arc turns by at most half a turn, then the element drawn for it is an SVG arc which is exactly the arc of the machine: the same centre and the same angle. Missing: arcs of more than half a turn (`C99_refuted_long`). | C99_refuted_long: The part of C99 that fails, for every arc of more than half a turn and less than a whole one: what is drawn is an arc around another centre."
  },
  {
   "property": "C100",
   "status": "partial",
   "theorems": [
    "Verif.Cam.C100_marks_partial",
    "Verif.Cam.C100_arc_marks_partial",
    "Verif.Cam.C100_refuted_long"
   ],
   "note": "C100_marks_partial: C100 (lines): with tool marks on, a feed along a line of positive length adds `n + 1` marks: at the two ends and at the points that divide the line in `n` equal parts, turned evenly from the angle before to the angle after, where `n` is the length over the marking interval, rounded down, at least one. (`n` up to the inverse of the resolution.) Arcs: `C100_arc_marks_partial`. Missing: the marks that are stored but not drawn because they coincide with the one before. | C100_arc_marks_partial: C100 (arcs): with tool marks on, a feed along an arc of less than half a turn adds `n + 1` marks: at the two ends and at the points that divide the arc of the machine in `n` equal parts, turned evenly from the angle before to the angle after, where `n` is the length of the arc over the marking interval, rounded down, at least one. Missing: longer arcs (`C100_refuted_long`). | C100_refuted_long: The part of C100 that fails: for every arc of more than half a turn (and less than a whole one) the marks are along the rest of the circle, on the other side of the chord, from the start to the end in the opposite direction."
  },
  {
   "property": "C101",
   "status": "proved",
   "theorems": [
    "Verif.Cam.C101_traverses",
    "Verif.Cam.C101_ends_raised"
   ],
   "note": ""
  },
  {
   "property": "C102",
   "status": "proved",
   "theorems": [
    "Verif.Cam.C102_coordinates",
    "Verif.Cam.C102_declared",
    "Verif.Cam.C102_choice"
   ],
   "note": ""
  },
  {
   "property": "C103",
   "status": "partial",
   "theorems": [
    "Verif.Cam.C103_height_partial",
    "Verif.Cam.C103_refuted"
   ],
   "note": "C103_height_partial: C103, what holds: at the end of a completed program the machine is at the height `z_safe` of the settings, in machine units, exactly if that is zero or one user unit is one machine unit. Missing: other documents (`C103_refuted`). | C103_refuted: C103, the part that fails: in a document in pixels, with the units of the document, there are completed programs with `z_safe` one (inch) that end with the machine at a ninetieth of an inch."
  },
  {
   "property": "C104",
   "status": "partial",
   "theorems": [
    "Verif.Cam.C104_terminates_partial",
    "Verif.Cam.C104_refuted_depth",
    "Verif.Cam.C104_single_pass",
    "Verif.Cam.C104_steps",
    "Verif.Cam.C104_completes_partial"
   ],
   "note": "C104_terminates_partial: C104, termination: with a final depth below the surface, code generation terminates for every option \"depth per pass\", positive, negative or zero, all other options and all paths. Missing: depths that are not negative (`C104_refuted_depth`). | C104_refuted_depth: C104, the part that fails: with a final depth of zero or above (the dialog's own default is 0.25) no run is ever completed. | C104_completes_partial: C104, completion: for every document (positive font sizes, nonzero view scale), with a valid unit of the G code, a positive tolerance, a final depth below the surface, no brush reload, and a tool width that is not zero if the angular feed rate is to be matched, every list of paths that can be prepared is cut completely, without an exception, whatever the other settings."
  },
  {
   "property": "C105",
   "status": "partial",
   "theorems": [
    "Verif.Cam.C105_refuted_tool_wait",
    "Verif.Cam.C105_warm_up_partial"
   ],
   "note": "C105_refuted_tool_wait: C105, the part that fails: the option \"wait for tool up/down\" is in seconds according to the dialog and the help text, but (with the spindle not switched per path) every wait in the program is a thousandth of it, and there is one. | C105_warm_up_partial: C105, what holds: with the spindle started before every path, each start of the spindle is followed at once by a wait of exactly the requested number of seconds. Missing: the wait for the tool (`C105_refuted_tool_wait`)."
  },
  {
   "property": "C106",
   "status": "partial",
   "theorems": [
    "Verif.Cam.C106_unmatched_partial",
    "Verif.Cam.C106_refuted_match"
   ],
   "note": "C106_unmatched_partial: C106, what holds: without matching, the rate of the A axis is the option, and matching with a tool of width zero is refused. Missing: the matching (`C106_refuted_match`). | C106_refuted_match: C106, the part that fails: the rate is to be chosen \"so that the outside edge of the brush matches the linear feed rate of the XY axes\", but for every tool width and feed rate the edge moves at a quarter of it."
  },
  {
   "property": "C107",
   "status": "partial",
   "theorems": [
    "Verif.Cam.C107_refused",
    "Verif.Cam.C107_precision_partial",
    "Verif.Cam.C107_refuted"
   ],
   "note": "C107_precision_partial: C107, what holds: in every program every number (other than the length of a wait) has the same number `d` of decimals, between 2 and 15; one unit of the last of them is at most `√10` times the tolerance, so that the rounding error is less than 1.6 times the tolerance; and it is at most half the tolerance if the tolerance is a power of ten (down to `1e-15`, the smallest possible unit). Missing: an error within the tolerance for other tolerances (`C107_refuted`). | C107_refuted: C107, the part that fails: with a tolerance of 0.000032 every number has four decimals, so that a coordinate such as 0.00005 is written with an error of 0.00005, more than the tolerance."
  },
  {
   "property": "C108",
   "status": "partial",
   "theorems": [
    "Verif.Cam.C108_given",
    "Verif.Cam.C108_refuted_default"
   ],
   "note": "C108_refuted_default: C108, the part that fails: an option in document units that is not given keeps its default as a number of user units; giving the default explicitly has the same effect exactly if it is zero or one document unit is one user unit."
  },
  {
   "property": "C109",
   "status": "partial",
   "theorems": [
    "Verif.Cam.C109_refuted_start",
    "Verif.Cam.C109_cuts_spinning_partial"
   ],
   "note": "C109_refuted_start: C109, the part that fails: the dialog offers to start the spindle at the start of the program, but with every setting other than \"on before every path\" the program contains no spindle start at all. | C109_cuts_spinning_partial: C109, what holds: with the spindle on before every path, for every document, other settings and paths, each line of the program that cuts (a feed in X or Y) is executed with the spindle on. Missing: the mode \"on at start\" (`C109_refuted_start`)."
  },
  {
   "property": "C110",
   "status": "proved",
   "theorems": [
    "Verif.Cam.C110_no_turns",
    "Verif.Cam.C110_uncompensated"
   ],
   "note": ""
  },
  {
   "property": "C111",
   "status": "partial",
   "theorems": [
    "Verif.Svg.C111_shapes_partial",
    "Verif.Svg.C111_refuted_comment"
   ],
   "note": "C111_shapes_partial: C111, documents without comments and references: for every element (the document root or a layer, with any ancestors) and every subtree below it that is no deeper than the recursion limit, the result is exactly the list of the drawn shapes (shapes all of whose ancestors below the element are groups that are not to be skipped, and that are not switched off, nor any of their ancestors), in document order, each once, with the transform of the element as SVG composes it (`get_element_transform`, C77). Missing: comments and references (`C111_refuted_comment`, C112). | C111_refuted_comment: C111, refuted as \"comments are ignored\": a comment among the elements ends in `AttributeError`, for every document whose root is visible and has only a comment before anything else."
  },
  {
   "property": "C112",
   "status": "partial",
   "theorems": [
    "Verif.Svg.C112_references",
    "Verif.Svg.C112_endless",
    "Verif.Svg.C112_point",
    "Verif.Svg.C112_refuted_cycle"
   ],
   "note": "C112_refuted_cycle: C112, refuted as \"the shapes of every document can be collected\": a group that contains a reference to itself."
  },
  {
   "property": "C113",
   "status": "partial",
   "theorems": [
    "Verif.Svg.C113_document_partial",
    "Verif.Svg.C113_selection_partial",
    "Verif.Svg.C113_own_layers",
    "Verif.Svg.C113_refuted_selected_preview",
    "Verif.Svg.C113_refuted_subpaths",
    "Verif.Svg.C113_refuted_user_layer",
    "Verif.Svg.C113_refuted_twice",
    "Verif.Svg.C113_refuted_missing"
   ],
   "note": "C113_document_partial: C113, nothing selected, in documents without comments and references: exactly the shapes that are not hidden, inside groups only and in no layer of tcnc's own are cut, in document order. | C113_selection_partial: C113, with a selection, in documents without comments and references: the selected elements one after the other, in the order of the selection, and of each what it shows; ids that do not exist are ignored. Only layers inside a selected element are skipped, not those around it (`C113_refuted_selected_preview`), and what is selected twice, by itself and within a group, is cut twice (`C113_refuted_twice`). | C113_refuted_selected_preview: C113, refuted as \"the preview is never cut\": a selected path of the preview is cut, for instance if everything is selected. | C113_refuted_subpaths: C113, refuted as \"what tcnc draws is never cut\": the subpaths drawn by one run are cut by the next. | C113_refuted_user_layer: C113, refuted as \"the drawing is cut\": a layer of the user whose name happens to begin with `tcnc` and a space is left out, even if it is selected. | C113_refuted_twice: C113, refuted as \"each shape is cut once\": a group selected along with one of its members. | C113_refuted_missing: C113, refuted as \"nothing selected means everything\": selected elements that no longer exist mean that nothing is cut."
  },
  {
   "property": "C114",
   "status": "partial",
   "theorems": [
    "Verif.Cam.C114_tour",
    "Verif.Cam.C114_document_partial",
    "Verif.Cam.C114_refuted_open"
   ],
   "note": "C114_document_partial: C114, from the drawing to the machine, for drawings of straight lines and settings that leave the paths alone (curves are cut as the arcs of C95, and the settings that change paths are those of C27 and C36 to C40): for every document with a size, units and at least one shape to cut, the document opens, a program is generated, and every program that can be generated is complete and moves in X and Y exactly to the corners of the shapes, shape by shape in the order of C111, once for each pass at its depth (a single pass at the final depth, or passes one step apart), measured from the lower left corner of the page in units of the G code, to within the tolerance. | C114_refuted_open: The part of C114 that fails: a drawing that was not saved by Inkscape, without its `namedview` element, cannot be opened, and neither can one without the attributes `width` and `height` (which SVG allows, meaning 100%): `AttributeError` and `TypeError`, whatever else is in it."
  },
  {
   "property": "C115",
   "status": "partial",
   "theorems": [
    "Verif.Geom.C115_terminates",
    "Verif.Geom.C115_length_partial",
    "Verif.Geom.C115_refuted_cache"
   ],
   "note": "C115_length_partial: C115, accuracy: the result of every completed computation differs from the arc length by at most half the tolerance for each of the pieces into which the curve is divided, and by at most half of what the control polygon is longer than the chord. Missing: a bound by the tolerance itself, which the documentation promises (the errors of the pieces add up). | C115_refuted_cache: The part of C115 that fails: the computed length is kept and returned from then on, whatever tolerance is asked for later. A curve asked first for a coarse length is given that length also for a fine tolerance, here wrong by more than 0.3 at a tolerance of 0.01."
  },
  {
   "property": "C116",
   "status": "proved",
   "theorems": [
    "Verif.Geom.C116_derivatives",
    "Verif.Geom.C116_curvature"
   ],
   "note": ""
  },
  {
   "property": "C117",
   "status": "partial",
   "theorems": [
    "Verif.Geom.C117_extrema_partial",
    "Verif.Geom.C117_bounds_partial",
    "Verif.Geom.C117_refuted"
   ],
   "note": "C117_extrema_partial: C117, extrema: if the curve is properly cubic in X and in Y, exactly the parameters inside the curve at which its tangent is vertical or horizontal (or the point stands still) are returned. Missing: curves that are not (`C117_refuted`). | C117_bounds_partial: C117, bounds: the whole curve is in the box around its ends and the returned extrema: no point of it is further left, right, up or down than all of these. | C117_refuted: The part of C117 that fails: a curve that is not properly cubic in X or in Y raises `ZeroDivisionError`: every curve made from a quadratic one, every straight horizontal or vertical one, every curve symmetric in this respect."
  },
  {
   "property": "C118",
   "status": "partial",
   "theorems": [
    "Verif.Geom.C118_open_partial",
    "Verif.Geom.C118_closed_partial",
    "Verif.Geom.C118_tangent",
    "Verif.Geom.C118_refuted"
   ],
   "note": "C118_open_partial: C118, open paths: for every connected path of two or more proper segments whose vertices can be rounded visibly and that does not end where it starts, `smooth_path` returns one curve for each segment, with the same ends, and the curves follow each other smoothly. | C118_closed_partial: C118, closed paths: for every closed path of two or more proper segments whose vertices can be rounded visibly, `smooth_path` returns one curve for each segment, with the same ends, and the curves follow each other smoothly, the first one after the last one as well. | C118_refuted: The parts of C118 that fail. A Bezier curve at the second place (or at the first one) makes the whole path disappear. In a closed path of lines that begins with a line of no length, this line is kept and the next one is lost."
  },
  {
   "property": "C119",
   "status": "partial",
   "theorems": [
    "Verif.Cam.C119_replaced_partial",
    "Verif.Cam.C119_unhinted",
    "Verif.Cam.C119_refuted"
   ],
   "note": "C119_replaced_partial: C119: whatever path of two or more segments `fix_G1_path` returns is the given one with each hinted segment replaced as described by `Item.Good`: by arcs and lines along a curve with the same ends, with the tool turning evenly from its angle at the start of the segment to its angle at the end; all other segments stay. Where hinted segments follow each other (proper segments, visible rounding), the curves join smoothly. Missing: the junction from a hinted segment to one that is not hinted (`C119_refuted`), and the absence of errors. | C119_refuted: The part of C119 that fails. Every smooth path is hinted except for its last segment; before it the direction is lost: for every arc that is followed, in its direction, by a line, the curve that replaces the arc does not end in the direction of the line."
  },
  {
   "property": "C120",
   "status": "proved",
   "theorems": [
    "Verif.Geom.C120_parity",
    "Verif.Geom.C120_inside"
   ],
   "note": ""
  },
  {
   "property": "C121",
   "status": "partial",
   "theorems": [
    "Verif.Geom.C121_clip_partial",
    "Verif.Geom.C121_refuted_inside",
    "Verif.Geom.C121_refuted_corner"
   ],
   "note": "C121_clip_partial: C121: for every polygon and every line in general position to it, `intersect_line` returns exactly the parts of the line that are inside the polygon (less those shorter than the tolerance), provided that the ends of the line are not both inside while parts of it are outside (`C121_refuted_inside`). | C121_refuted_inside: A part of C121 that fails: whenever both ends of the line are inside and the line leaves the polygon in between, the last part of it, although inside, is not returned. | C121_refuted_corner: Another part of C121 that fails: a line through a corner. The square is crossed from a corner to the opposite side, and nothing is returned."
  },
  {
   "property": "C122",
   "status": "proved",
   "theorems": [
    "Verif.Cam.C122_fits",
    "Verif.Cam.C122_open",
    "Verif.Cam.C122_closed",
    "Verif.Cam.C122_path"
   ],
   "note": ""
  },
  {
   "property": "C123",
   "status": "partial",
   "theorems": [
    "Verif.Svg.C123_suffix",
    "Verif.Svg.C123_by_name",
    "Verif.Svg.C123_attributes",
    "Verif.Svg.C123_rerun",
    "Verif.Svg.C123_refuted_same_run"
   ],
   "note": "C123_refuted_same_run: A layer made in a run is an element without a name space, which is not found in the same run."
  },
  {
   "property": "C124",
   "status": "partial",
   "theorems": [
    "Verif.Svg.C124_same_cut",
    "Verif.Svg.C124_next_run",
    "Verif.Svg.C124_refuted_reference"
   ],
   "note": "C124_refuted_reference: C124, without the condition on references: a reference into the preview is followed, so that what is cut can change."
  },
  {
   "property": "C125",
   "status": "partial",
   "theorems": [
    "Verif.Svg.C125_layers",
    "Verif.Svg.C125_elements",
    "Verif.Svg.C125_margins",
    "Verif.Svg.C125_refuted_overlap"
   ],
   "note": "C125_refuted_overlap: C125, refuted for margins that do not fit: with margins of 8 on a page of 10 by 10, no point is 8 away from all sides, but the rectangle is the square from 2 to 8 instead of being empty."
  },
  {
   "property": "C126",
   "status": "partial",
   "theorems": [
    "Verif.Ext.C126_within",
    "Verif.Ext.C126_ends_partial",
    "Verif.Ext.C126_refuted_down",
    "Verif.Ext.C126_refuted_cycles",
    "Verif.Ext.C126_refuted_zero",
    "Verif.Ext.C126_spacing"
   ],
   "note": "C126_ends_partial: C126, the program ends: if the spacing is positive, the number of cycles not zero and the least and greatest spacing not negative, then, whatever the random numbers are, the lines are found without an exception, in a number of rounds that does not depend on the random numbers, unless the angle points straight down. | C126_refuted_down: C126, refuted for lines that point straight down (a rotation of -90 degrees in the dialog): division by zero in exact arithmetic; in floats the cosine is about 6e-17, so that the lines are as far apart as that says and only the first one is drawn. | C126_refuted_cycles: C126, refuted for a number of cycles of zero, which the dialog allows: division by zero. | C126_refuted_zero: C126, refuted for a spacing of zero: the program does not end."
  },
  {
   "property": "C127",
   "status": "partial",
   "theorems": [
    "Verif.Ext.C127_horizontal",
    "Verif.Ext.C127_vertical",
    "Verif.Ext.C127_leaning_partial",
    "Verif.Ext.C127_refuted_rotation",
    "Verif.Ext.C127_refuted_invert",
    "Verif.Ext.C127_jitter"
   ],
   "note": "C127_leaning_partial: C127, rotated lines, as the program draws them: for an angle `θ` from minus a quarter to an eighth of a turn, the lines go from side to side and rise (or fall) by `|sin θ|` times the width, at heights that differ by the spacing divided by `cos θ`; those drawn are exactly the parts within the rectangle that are not shorter than the tolerance. The rise should be `tan θ` times the width: see `C127_refuted_rotation`. | C127_refuted_rotation: C127, refuted for rotated lines: if the angle asked for is not a multiple of a quarter turn, no line that is drawn has that direction (in a rectangle that is not empty, without random angles): horizontal lines rise by `sin θ` of the width, not `tan θ`. | C127_refuted_invert: C127, refuted if the spacing is inverted without a formula (the default of the option for vertical lines): whatever spacing is asked for, the lines are a tenth of a unit apart: in a rectangle 1 high, 10 lines instead of the 2 that are asked for."
  },
  {
   "property": "C128",
   "status": "proved",
   "theorems": [
    "Verif.Ext.C128_directions",
    "Verif.Ext.C128_doubled",
    "Verif.Ext.C128_connected",
    "Verif.Ext.C128_paths",
    "Verif.Ext.C128_single_path",
    "Verif.Ext.C128_alternated"
   ],
   "note": ""
  },
  {
   "property": "C129",
   "status": "proved",
   "theorems": [
    "Verif.Svg.C129_rounding",
    "Verif.Svg.C129_polypath",
    "Verif.Svg.C129_line",
    "Verif.Svg.C129_arc",
    "Verif.Svg.C129_curve",
    "Verif.Svg.C129_two_arcs",
    "Verif.Svg.C129_polygon",
    "Verif.Svg.C129_single_vertex"
   ],
   "note": ""
  },
  {
   "property": "C130",
   "status": "partial",
   "theorems": [
    "Verif.Svg.C130_arc_partial",
    "Verif.Svg.C130_refuted_long",
    "Verif.Svg.C130_refuted_circle",
    "Verif.Svg.C130_ellipse",
    "Verif.Svg.C130_ellipse_text"
   ],
   "note": "C130_arc_partial: C130 (arcs), the part that holds: the command that `create_polypath` writes for an arc of at most half a turn (equal radii, large arc flag 0, the sweep flag of the model) means, among all arcs between these end points, exactly that arc. Missing: arcs of more than half a turn and whole circles. | C130_refuted_long: C130 is false of longer arcs: what is written for an arc of more than half a turn never means an arc around its centre. | C130_refuted_circle: C130 is false of whole circles: a command whose end point is its start point means no arc at all."
  },
  {
   "property": "C131",
   "status": "partial",
   "theorems": [
    "Verif.Svg.C131_number",
    "Verif.Svg.C131_opens_partial",
    "Verif.Svg.C131_refuted_units",
    "Verif.Svg.C131_layer"
   ],
   "note": "C131_opens_partial: C131 (opening), the part that holds: a document created with a width and a height in pixels (at least a millionth) opens as a page of that width and height (to six decimals), with a scale of one user unit to the pixel and pixels as its units. Missing: other units. | C131_refuted_units: The part of C131 that fails: for every other unit the width of the page in user units is the size of the unit in pixels times the width asked for, instead of the width asked for: the attribute that would set the user unit is misspelled."
  },
  {
   "property": "C132",
   "status": "partial",
   "theorems": [
    "Verif.Svg.C132_distinct_partial",
    "Verif.Svg.C132_refuted"
   ],
   "note": "C132_distinct_partial: C132, the part that holds: whatever the random number is, `random_id` returns the prefix followed by that number in decimal, so that different numbers give different identifiers. | C132_refuted: C132 is refuted: for every document (that has no element with the peculiar id for which the search looks), every prefix and every random number, the identifier is returned at once, also if an element of the document has it."
  },
  {
   "property": "C133",
   "status": "proved",
   "theorems": [
    "Verif.Ext.C133_transform_text",
    "Verif.Ext.C133_identity"
   ],
   "note": ""
  },
  {
   "property": "C134",
   "status": "partial",
   "theorems": [
    "Verif.Ext.C134_copies",
    "Verif.Ext.C134_moved_partial",
    "Verif.Ext.C134_refuted_scaled",
    "Verif.Ext.C134_refuted_unselected"
   ],
   "note": "C134_moved_partial: C134, the part that holds: if the selected elements are not scaled, rotated or skewed by their own transforms, the copies are moved by multiples of the interval in the direction of the angle. Missing: other transforms. | C134_refuted_scaled: The part of C134 that fails: the copy of an element that is scaled by two is moved by twice the distance asked for (to the tolerance of the text). | C134_refuted_unselected: The other part of C134 that fails: if nothing is selected and the copies go into the document itself, the extension never ends (as long as every element of the document can be copied): it copies its own copies."
  },
  {
   "property": "C135",
   "status": "partial",
   "theorems": [
    "Verif.Ext.C135_nothing",
    "Verif.Ext.C135_paths",
    "Verif.Ext.C135_selected",
    "Verif.Ext.C135_rest",
    "Verif.Ext.C135_place_partial",
    "Verif.Ext.C135_refuted_place",
    "Verif.Ext.C135_pieces",
    "Verif.Ext.C135_no_data"
   ],
   "note": "C135_place_partial: C135 (places), the part that holds: a path that is moved from a layer without a transform into the new layer (which has none, C123) is drawn where it was. Missing: layers with transforms. | C135_refuted_place: The part of C135 that fails: a path in a layer that is moved by 100 is drawn elsewhere after it is put into the new layer."
  },
  {
   "property": "C136",
   "status": "partial",
   "theorems": [
    "Verif.Ext.C136_simplify_partial",
    "Verif.Ext.C136_curves_partial",
    "Verif.Ext.C136_refuted"
   ],
   "note": "C136_simplify_partial: C136, the part that holds: a connected path of lines, or of curves followed by such lines, is simplified into the same curves followed by a connected path of lines that begins and ends at the same points, whose vertices are some of those of the path in the same order, and no point of the path is further than the tolerance from it. | C136_curves_partial: C136, curves only: without lines nothing is changed. | C136_refuted: The parts of C136 that fail, for every curve: after two or more lines the curve is lost, and after a single line it is put before the line."
  },
  {
   "property": "C137",
   "status": "partial",
   "theorems": [
    "Verif.Ext.C137_new_layer",
    "Verif.Ext.C137_replace_partial",
    "Verif.Ext.C137_refuted"
   ],
   "note": "C137_replace_partial: C137, replacing an element: every smoothed path that is not empty is written, once and in order; the first one is put where the element was. | C137_refuted: The part of C137 that fails: of an element with several paths only the first one stays where the element was; all the others are put elsewhere, into the root of the document."
  },
  {
   "property": "C138",
   "status": "partial",
   "theorems": [
    "Verif.Cam.C138_loops_partial",
    "Verif.Cam.C138_ends_partial",
    "Verif.Cam.C138_connected_partial",
    "Verif.Cam.C138_refuted_crash",
    "Verif.Cam.C138_refuted_gap",
    "Verif.Cam.C138_refuted",
    "Verif.Cam.C138_left_partial",
    "Verif.Cam.C138_refuted_near"
   ],
   "note": "C138_loops_partial: C138, loops: from every connected path the collapsing of loops makes a connected path with the same ends, all of whose vertices are vertices of the path or points where two of its lines cross. | C138_ends_partial: C138, ends: whatever the points (each the same as the one before it or clearly apart from it, and not all the same), the outline begins at the first point and ends at the last one. | C138_connected_partial: C138, the part that holds: if the path, after the collapsing of its loops, turns nowhere by more than a right angle (and has no lines of no length), then the outline is this path, and it is connected and leads from the first point to the last one. | C138_refuted_crash: A part of C138 that fails: an error, for every number of points that are all the same. | C138_refuted_gap: A part of C138 that fails: after a turn back that is not followed by a turn forward, the outline is not connected. | C138_refuted: Parts of C138 that fail: a loop that is left, since the rest of a line that was cut is not looked at again; and a part of the outline that is lost, since a point in line with the last line replaces its end even if it is behind it. | C138_left_partial: C138, turns back to the left: where the way turns back to the left (sharper than a right angle) and then goes forward again, the spike is cut off: the outline leads straight from the start of the first line to the start of the forward line, and is connected. | C138_refuted_near: A part of C138 that fails: a point that is only nearly the same as the one before it is passed over but the next line starts there: the outline has a gap."
  },
  {
   "property": "C139",
   "status": "partial",
   "theorems": [
    "Verif.Cam.C139_offsets_partial",
    "Verif.Cam.C139_points",
    "Verif.Cam.C139_refuted"
   ],
   "note": "C139_offsets_partial: C139, the part that holds: for a positive distance the sub-paths are drawn at the multiples of the distance that are less than the width of the tool, all of them, and the drawing ends. | C139_refuted: The part of C139 that fails: with a distance of zero, which is the value the option has if it is not given, or less, the drawing never ends."
  },
  {
   "property": "C140",
   "status": "partial",
   "theorems": [
    "Verif.Graph.C140_faces_partial",
    "Verif.Graph.C140_refuted_dead_ends",
    "Verif.Graph.C140_refuted_order"
   ],
   "note": "C140_faces_partial: C140 (graphs without dead ends). `get_face_polygons` returns, whatever the order of the nodes, without an exception, and there is a list of walks such that every walk comes back to its first node and takes the leftmost way on at every other node, the walks together go along every edge exactly once in each direction, and the polygons returned are exactly the walks that are not clockwise. | C140_refuted_dead_ends: C140, refuted (dead ends). Two dead ends inside a square are enough for its face not to be found, although the walk round the square is there: counter-clockwise, and each of its steps an edge. | C140_refuted_order: C140, refuted (node order). With a triangle inside a square at its corner, the polygons depend on the order in which the nodes are taken: starting at the corner the second face is the whole square, which overlaps the triangle; starting anywhere else the triangle is cut out of it."
  },
  {
   "property": "C141",
   "status": "partial",
   "theorems": [
    "Verif.Graph.C141_boundary_partial",
    "Verif.Graph.C141_bottom_partial",
    "Verif.Graph.C141_refuted_touching",
    "Verif.Graph.C141_refuted_short",
    "Verif.Graph.C141_refuted_chain",
    "Verif.Graph.C141_refuted_removed",
    "Verif.Graph.C141_refuted_empty"
   ],
   "note": "C141_boundary_partial: C141 (graphs without dead ends, the walk). `boundary_polygon` starts at the bottom node, leaves it by the last of its edges (the one furthest counter-clockwise from the x axis), takes the leftmost way on at every node, and ends at its first return to the bottom node or after as many steps as the graph has nodes. | C141_bottom_partial: C141 (the bottom node). As long as edges are only added, in whatever order and however often the graph is queried in between, the node `boundary_polygon` starts from is a lowest node of the graph. | C141_refuted_touching: C141, refuted (a part missed). When two triangles touch at the lowest node, only one of them is in the boundary. | C141_refuted_short: C141, refuted (cut short). The boundary of a tower of four triangles has 12 sides; the polygon stops after 9, the number of nodes, at the third one from the top on the way down, and does not come to `(1, 1)`, which is on the boundary. | C141_refuted_chain: C141, refuted (exception). When the lowest node is the end of a chain, `boundary_polygon` raises `TypeError`. | C141_refuted_removed: C141, refuted (removed edges). After the edges of the lowest node have been removed, the node is still taken as the start, and `boundary_polygon` raises `IndexError`, although a triangle is left. | C141_refuted_empty: C141, refuted (nothing there). The boundary of a graph without edges is not the empty polygon: `boundary_polygon` raises `IndexError` for a new graph, and `AttributeError` after `cull_open_edges` has removed everything."
  },
  {
   "property": "C142",
   "status": "partial",
   "theorems": [
    "Verif.Graph.C142_longest_partial",
    "Verif.Graph.C142_refuted_empty",
    "Verif.Graph.C142_refuted_duplicates"
   ],
   "note": "C142_longest_partial: C142 (what is returned). For every graph with an edge, every order of the edges, every strategy and every outcome of the random choices `build_longest_paths` returns at least one path; every path goes along edges of the graph without repeating one; the paths are sorted by length, longest first, and no path found from any edge (there is one through each) is longer than the first. | C142_refuted_empty: C142, refuted (no edges). `build_longest_paths` of a graph without edges raises `IndexError`. | C142_refuted_duplicates: C142, refuted (duplicates). Similar paths are only dropped when they come one after the other: with two separate paths of equal length each is returned three times, once for each of its edges."
  },
  {
   "property": "C143",
   "status": "partial",
   "theorems": [
    "Verif.Graph.C143_add_poly_partial",
    "Verif.Graph.C143_refuted_empty"
   ],
   "note": "C143_add_poly_partial: C143 (some vertex). `add_poly` of at least one vertex on a graph that was never culled raises nothing, and the edges afterwards are those there were and the sides of the polygon (without the closing one if it is not asked for), apart from sides from a vertex to itself; the graph stays well-formed. | C143_refuted_empty: C143, refuted (no vertices). `add_poly` of an empty list raises `IndexError`."
  },
  {
   "property": "C144",
   "status": "partial",
   "theorems": [
    "Verif.Voronoi.C144_ends_partial",
    "Verif.Voronoi.C144_sizes",
    "Verif.Voronoi.C144_edges_partial",
    "Verif.Voronoi.C144_refuted_column",
    "Verif.Voronoi.C144_refuted_few"
   ],
   "note": "C144_ends_partial: C144, termination: for any points the sweep ends, after fewer than three turns of the main loop for each point, and no exception but a division by zero is possible. | C144_edges_partial: C144, edges: each pair of neighbours has an edge in the diagram: one edge if it is a segment or a ray, and (a defect) two equal ones if it is a line without end points. The end points are vertices of the diagram. | C144_refuted_column: A part of C144 that fails: points with the same x (five or more) raise `ZeroDivisionError`. | C144_refuted_few: A part of C144 that fails: up to four points have no diagram."
  },
  {
   "property": "C145",
   "status": "partial",
   "theorems": [
    "Verif.Voronoi.C145_edges",
    "Verif.Voronoi.C145_vertices_partial",
    "Verif.Voronoi.C145_triangles_partial",
    "Verif.Voronoi.C145_jiggle_partial",
    "Verif.Voronoi.C145_refuted_jiggle",
    "Verif.Voronoi.C145_refuted"
   ],
   "note": "C145_vertices_partial: C145, vertices: each vertex of the diagram is equally far from three different input points. (That no input point is nearer is not proved.) | C145_triangles_partial: C145, triangles: the corners of the triangles are input points. | C145_jiggle_partial: C145, jiggled points: each coordinate is moved by at least `1e-8` and at most `1e-7` of its size; with `C145_refuted_jiggle` for a coordinate 0. | C145_refuted_jiggle: A part of C145 that fails: jiggling does not move a coordinate that is 0, so that points on the y axis raise `ZeroDivisionError` even if they are jiggled. | C145_refuted: Parts of C144 and C145 that fail: the edges between points in a row are all listed twice; two lowest points that coincide raise `ZeroDivisionError`; and `p3` of a triangle is its second corner."
  },
  {
   "property": "C146",
   "status": "proved",
   "theorems": [
    "Verif.Voronoi.C146_sites",
    "Verif.Voronoi.C146_events"
   ],
   "note": ""
  },
  {
   "property": "C147",
   "status": "partial",
   "theorems": [
    "Verif.Ext.C147_tiles",
    "Verif.Ext.C147_rhombi",
    "Verif.Ext.C147_odd",
    "Verif.Ext.C147_even_refuted"
   ],
   "note": "C147_even_refuted: C147 (even symmetries): the module says that the division by zero for even symmetries is cured by turning the directions a little. The opposite directions of an even symmetry are parallel however they are turned: in exact arithmetic every even symmetry stops with a `ZeroDivisionError`, whatever the tolerance (in floating point it depends on how the two slopes are rounded)."
  },
  {
   "property": "C148",
   "status": "proved",
   "theorems": [
    "Verif.Ext.C148_cells",
    "Verif.Ext.C148_neighbours"
   ],
   "note": ""
  },
  {
   "property": "C149",
   "status": "partial",
   "theorems": [
    "Verif.Ext.C149_figures",
    "Verif.Ext.C149_rectangles",
    "Verif.Ext.C149_acute_refuted",
    "Verif.Ext.C149_corners_partial"
   ],
   "note": "C149_acute_refuted: C149 (acute corners): the documentation says that the segments of kind `SEG_VERT_ACUTE` join the corners with acute angles. The same two corners are joined whatever the angle: in a tiling of symmetry 5 there is a tile whose second and fourth corners, which have obtuse angles, are joined. | C149_corners_partial: C149 (acute corners, what holds): the corners joined by `SEG_VERT_ACUTE` have angles that are not obtuse when the two directions of the tile are at a right or obtuse angle, and those joined by `SEG_VERT_OBTUSE` are obtuse then."
  },
  {
   "property": "C150",
   "status": "partial",
   "theorems": [
    "Verif.Ext.C150_chains",
    "Verif.Ext.C150_drawn",
    "Verif.Ext.C150_closed_polygon_refuted"
   ],
   "note": "C150_closed_polygon_refuted: C150 (refuted): not every closed polygon made of the segments is drawn as one. The four sides of a square alone are drawn, and filled, as a closed polygon. With one more segment at the corner where the chain closes, the chain runs on along it, ends elsewhere, and \"closed polygons only\" draws nothing."
  },
  {
   "property": "C151",
   "status": "partial",
   "theorems": [
    "Verif.Ext.C151_projection_partial",
    "Verif.Ext.C151_center_refuted",
    "Verif.Ext.C151_shape",
    "Verif.Ext.C151_injective"
   ],
   "note": "C151_projection_partial: C151 (formula). The spherical projection leaves every point outside the circle where it is, and moves a point inside along its ray from the centre to the distance at which it would be seen on the sphere; inverted, a point inside comes as much closer to the centre as the sine of its angle says. | C151_center_refuted: C151 (refuted): the projection is not defined everywhere. A point at the centre makes the projection fail with a `ZeroDivisionError` (unless inverted), and with the default radius 0 also the inverted one."
  },
  {
   "property": "C152",
   "status": "partial",
   "theorems": [
    "Verif.Ext.C152_kept_partial",
    "Verif.Ext.C152_kept",
    "Verif.Ext.C152_boxes_refuted",
    "Verif.Ext.C152_answer",
    "Verif.Ext.C152_picture",
    "Verif.Ext.C152_bbox_partial",
    "Verif.Ext.C152_bbox_refuted"
   ],
   "note": "C152_kept_partial: C152 (what is kept). As long as no box gets the colour of a tile, the plotter collects everything it is told of without an exception: exactly those tiles and boxes all of whose corners, where they are drawn, are inside the clipping region, in order and with their colours, and all segments. The table of colours has every colour of a tile once, with the number of tiles of that colour. | C152_boxes_refuted: C152 (refuted): the boxes can make the run fail. The plotter looks for the colour of a box among the colours of the tiles: a box inside the region with the colour of an earlier tile, the first of that colour, raises a `KeyError`, whatever else is plotted afterwards. | C152_bbox_partial: C152 (bounding box). The box that is drawn around the tiles is their bounding box, provided some corner is not left of, and some corner not below, the smallest positive number (and not all are beyond the largest). | C152_bbox_refuted: C152 (refuted): the bounding box. `sys.float_info.min` is the smallest positive number: when all tiles that are kept lie left of the page's origin, the box reaches to the right of every one of them."
  },
  {
   "property": "C153",
   "status": "partial",
   "theorems": [
    "Verif.Ext.C153_placement_partial",
    "Verif.Ext.C153_rotation_refuted",
    "Verif.Ext.C153_region_partial",
    "Verif.Ext.C153_margins_refuted",
    "Verif.Ext.C153_centered_partial",
    "Verif.Ext.C153_centered_refuted",
    "Verif.Ext.C153_recenter_partial",
    "Verif.Ext.C153_recenter_refuted"
   ],
   "note": "C153_placement_partial: C153 (placement). Without rotation every point is drawn where it belongs; with any rotation the drawing is the tiling scaled by a tenth of the scale setting, with all distances in proportion, and not mirrored (for a positive scale; missing: the position with a rotation, see `C153_rotation_refuted`). | C153_rotation_refuted: C153 (refuted): the rotation. The tiling is turned about the corner of the page, after it was moved to the middle: the middle of the tiling is drawn where it belongs only if the rotation is by full turns, or that place is the corner itself. | C153_region_partial: C153 (where it is drawn). If the margins leave something of the page, the clipping region is what the user chose: the inside of the page, of the margins, of both, or everything; with the circle option it is a circle about the middle of that rectangle that lies in it and cannot be larger (missing: margins that leave nothing, see `C153_margins_refuted`). | C153_margins_refuted: C153 (refuted): margins that leave nothing. If page and margins are both to be respected but have no point in common, nothing is clipped at all; and margins that together are wider and higher than the page are taken the other way round, so that what is drawn is what keeps none of them. | C153_centered_partial: C153 (centred). With the centering option the middle of the tiling is put in the middle of the clipping rectangle; without it nothing is added. | C153_centered_refuted: C153 (refuted): centering. Centering without clipping, or with page and margins that have no point in common, raises `AttributeError`. | C153_recenter_partial: C153 (re-centering). With a circle, re-centering moves all tiles and segments by one and the same vector, so that the middle of their bounding box becomes the centre of the circle; nothing else changes (missing: the boxes, and rectangles, see `C153_recenter_refuted`). | C153_recenter_refuted: C153 (refuted): re-centering. With a rectangle it always raises `TypeError`. With a circle the boxes stay where they were while the tiles they belong to are moved; and tiles that were inside the circle can be moved out of it."
  },
  {
   "property": "C154",
   "status": "partial",
   "theorems": [
    "Verif.Ext.C154_filled_by_kind_partial",
    "Verif.Ext.C154_filled_in_turn_partial",
    "Verif.Ext.C154_colors_refuted",
    "Verif.Ext.C154_boxes_by_kind_partial",
    "Verif.Ext.C154_boxes_refuted",
    "Verif.Ext.C154_edges_partial",
    "Verif.Ext.C154_edges_refuted",
    "Verif.Ext.C154_segments"
   ],
   "note": "C154_filled_by_kind_partial: C154 (tiles filled by kind). Coloured by kind of tile, every tile that was kept is drawn once, in the order of plotting, in the colour whose place in the table is the rank of its kind among the kinds in the drawing plus the offset: tiles of one kind get the same colour (missing: empty tables and sorted tiles, see `C154_colors_refuted`). | C154_filled_in_turn_partial: C154 (tiles filled in turn). Otherwise the tiles get the colours of the table in turn, every step going on by one plus the offset. | C154_colors_refuted: C154 (refuted): colours. With a table that has no colours (\"gray\", \"green\" and \"blue\") any tile raises `ZeroDivisionError`; and the colours do not go with the tiles when these are sorted: the tile at each place is filled by the kind of the tile that was plotted at that place. | C154_boxes_by_kind_partial: C154 (boxes by kind). Coloured by kind, every box that was kept is drawn once, in its order, in the colour of the rank of its kind plus the offset; with a layer for each kind, it is put into the layer of its kind (missing: boxes coloured in turn, see `C154_boxes_refuted`). | C154_boxes_refuted: C154 (refuted): boxes coloured in turn. Unless coloured by kind, boxes cannot be put into layers: as soon as there is a box, an `IndexError` is raised. | C154_edges_partial: C154 (edges). Every edge of the tiling is drawn once, in the order given, scaled about its middle and then, if asked for, cut to the margins; the colours of the table are used in turn (missing: edges outside the margins and the layers, see `C154_edges_refuted`). | C154_edges_refuted: C154 (refuted): the layers of the edges, and edges outside the margins. With a layer per colour, every edge goes into the layer of the colour after its own, so that with two or more colours none is in the right layer; and an edge that lies outside the margins raises `AttributeError` instead of being left out."
  },
  {
   "property": "C155",
   "status": "partial",
   "theorems": [
    "Verif.Ext.C155_inset_partial",
    "Verif.Ext.C155_corners_refuted",
    "Verif.Ext.C155_layers"
   ],
   "note": "C155_inset_partial: C155 (inset tiles). A tile whose heights are at least twice the inset gets an inset tile, whose corners lie inside at exactly the inset from the two sides they belong to, and no closer to the others; a tile that is less high gets none. (The sides and the area of the tile and the inset are not smaller than the tolerance; missing: smaller ones, see `C155_corners_refuted`.) | C155_corners_refuted: C155 (refuted): corners that are missing. The tolerance for parallel lines is compared with the area of the tile: a tile whose area is below it gets `None` for every corner of its inset tile, also where it is high enough."
  },
  {
   "property": "C156",
   "status": "partial",
   "theorems": [
    "Verif.Ext.C156_tiles_partial",
    "Verif.Ext.C156_segments_partial",
    "Verif.Ext.C156_order_refuted"
   ],
   "note": "C156_tiles_partial: C156 (tiles). Sorting keeps every tile, once: from the inside out, ring after ring around the middle, or from the outside in, and in each ring counterclockwise starting from the X axis, each tile counting where its centroid is. (Missing: tiles without area, see `C156_order_refuted`, and centroids within the tolerance of the point one unit right of the middle, whose bearing is taken as 0.) | C156_segments_partial: C156 (edges and segments). Edges and segments are put into the same order, each counting where its middle is. | C156_order_refuted: C156 (refuted): tiles that cannot be sorted. If the first side of the first tile has no length (as under an inverted spherical projection, which takes the middle to itself), or a tile has no area, sorting raises `ZeroDivisionError`."
  },
  {
   "property": "C157",
   "status": "partial",
   "theorems": [
    "Verif.Ext.C157_drawn_partial",
    "Verif.Ext.C157_module_partial",
    "Verif.Ext.C157_polygon_partial",
    "Verif.Ext.C157_refuted",
    "Verif.Ext.C157_refuted_upright"
   ],
   "note": "C157_drawn_partial: C157: for every page and every list of edges, in any number, each with two end points or with one on the page and not upright: what is drawn is, for each edge in turn, one segment or nothing; the segment consists of points of the edge within the tolerance of the page, and every point of the edge that is on the page by at least the tolerance is on it. | C157_module_partial: C157, `geom.voronoiclip.clip_voronoi_segments`: the same, and also for edges that come from off the page. | C157_polygon_partial: C157, clipped to a polygon: without a polygon nothing is drawn in that layer; with one, and segments in general position to it, what is drawn are the parts of the segments inside the polygon, in order (but see `C121_refuted_inside`). | C157_refuted: Parts of C157 that fail, on every page. An edge that ends off the page is not drawn, whatever part of it is on the page. An upright edge is drawn in the same way whether its upper or its lower end is missing. And an edge without end points (points in a row have such edges) ends the run with an exception. | C157_refuted_upright: C157 fails in a drawing: the points `(4, 10)`, `(6, 10)`, `(5, 5)`, `(1, 1)`, `(9, 2)` on a page of 10 by 40. The edge between the cells of the first two goes up from `(5, 7.6)`: every point above has these two as its nearest. What is drawn goes from there down to the border, right through the third point."
  },
  {
   "property": "C158",
   "status": "partial",
   "theorems": [
    "Verif.Ext.C158_inside_hull_partial",
    "Verif.Ext.C158_delaunay_partial",
    "Verif.Ext.C158_refuted"
   ],
   "note": "C158_inside_hull_partial: C158, one line: a side of the polygon is always kept (with `allow_hull`, as the extension calls it; without it, never), and a line that crosses no side of the polygon and is not one of them is kept exactly if it runs inside the polygon. For every polygon, convex or not, and every line with one end at a vertex or away from the sides. | C158_delaunay_partial: C158, the drawing: without a polygon every Delaunay edge is drawn; with one, those that are sides of the polygon or run inside it, in order, provided that none of the edges crosses a side. | C158_refuted: A part of C158 that fails: a Delaunay edge may cross a polygon that has a notch. The line from `(0, 0)` to `(10, 0)` is one, as no other point is in the circle around its middle; it is kept, although its point `(8, 0)` is in the notch, outside."
  },
  {
   "property": "C159",
   "status": "partial",
   "theorems": [
    "Verif.Graph.C159_peel_partial",
    "Verif.Graph.C159_nested",
    "Verif.Graph.C159_islands_refuted",
    "Verif.Graph.C159_triangle_refuted"
   ],
   "note": "C159_peel_partial: C159 (what is peeled). For every graph, every polygon, every meaning of \"inside\" and all iteration orders `peel_boundary_polygon` ends without an exception. First the largest part of the graph strictly inside the polygon without dead ends is left; then, as long as more than three nodes are left (and the polygon given has more than three vertices), the polygon returned next is the rim of what is left, and what is left after it is the largest part strictly inside the rim without dead ends. Not covered: parts that do not hang together (see the refutation). | C159_islands_refuted: C159, refuted (an inner part lost). With two separate squares inside the boundary only the lower one is peeled; the other is strictly inside the boundary too, without dead ends and with four nodes, but none of its vertices is in any polygon returned. | C159_triangle_refuted: C159, refuted (triangles). An inner part of three nodes is never peeled."
  },
  {
   "property": "C160",
   "status": "partial",
   "theorems": [
    "Verif.Ext.C160_extensions",
    "Verif.Ext.C160_polypath_refuted",
    "Verif.Svg.C160_fill",
    "Verif.Svg.C160_missing",
    "Verif.Svg.C160_styles",
    "Verif.Svg.C160_scale_partial"
   ],
   "note": "C160_polypath_refuted: C160, refuted (settings without effect). The stroke settings of the graph paths (`--polysegpath-stroke`, `--polysegpath-stroke-width`, `--hull-stroke`, `--hull-stroke-width`) are options of the extension, but no setting whatsoever of any of its options changes any of its styles: the templates use other names. | C160_scale_partial: C160 (inline styles). `scale_inline_style` keeps all properties of a style; those whose name ends in `width`, `height` or `size` are written in user units, the others are left as they are. (Missing: names and values with `:` or `;`, which styles do not survive, see C74.)"
  },
  {
   "property": "C161",
   "status": "partial",
   "theorems": [
    "Verif.Ext.C161_lines_partial",
    "Verif.Ext.C161_lines_refuted",
    "Verif.Ext.C161_preview",
    "Verif.Ext.C161_preview_refuted"
   ],
   "note": "C161_lines_partial: C161 (line grids). Whatever the settings: with default styles the lines are grey and one point wide; otherwise the horizontal lines have the colour, width and opacity asked for, and the vertical lines those of the horizontal ones if they are to be copied, and otherwise those asked for, as long as their opacity is not 0 (`C161_lines_refuted` says what happens then). | C161_lines_refuted: C161, refuted (opacity of the vertical lines). An opacity of 0 asked for the vertical lines stays 0 (they are invisible), whatever the other settings are: the code tests the opacity of the horizontal lines a second time. | C161_preview_refuted: C161, refuted (two previews). The styles belong to the class and are filledIn in only once: a second preview in the same program has the styles of the first one, whatever its own scale (`small`, `medium` or `large`), its document's scale and its number format are. (Numbers are written without dollar signs.)"
  },
  {
   "property": "C162",
   "status": "partial",
   "theorems": [
    "Verif.Ext.C162_positions",
    "Verif.Ext.C162_touching_refuted",
    "Verif.Ext.C162_spacing",
    "Verif.Ext.C162_count",
    "Verif.Ext.C162_guides_partial",
    "Verif.Ext.C162_join",
    "Verif.Ext.C162_closed_refuted",
    "Verif.Ext.C162_reach_refuted",
    "Verif.Ext.C162_run"
   ],
   "note": "C162_touching_refuted: C162, refuted (paths that touch). A guide without length, for example when the two paths start at the same point, raises `ZeroDivisionError`. | C162_guides_partial: C162 (guides). For all paths of line segments: the guides are found without an exception, and * the second path is turned to face the first one; * every bent vertex of the first path and every vertex of the second path has a guide along its bisector towards the other path, if the bisector reaches it; * one guide joins the starts of the paths, one their ends; * the ends of all these guides are then sorted along each of the paths and joined in that order, the first one joining the starts; the last one joins the ends if no guide ends later on the paths. Missing: that the last guide always joins the ends (false for closed paths, `C162_closed_refuted`), and that every bisector that meets the other path gets a guide (it may be too short, `C162_reach_refuted`). | C162_closed_refuted: C162, refuted (closed paths). When both paths are closed, the guide that joins their ends is sorted to the front: the first two guides are the same, and nothing closes the lines that are drawn. | C162_reach_refuted: C162, refuted (bisectors that are too short). The bisectors are as long as the diagonal of the box around the starts of the segments; where the paths end does not count. Here the bisector at the vertex `(1, 0)` of the first path meets the second path at `(1, 10.5)`, but there are only the guides that join the starts and the ends."
  },
  {
   "property": "C163",
   "status": "partial",
   "theorems": [
    "Verif.Ext.C163_paths",
    "Verif.Ext.C163_longest",
    "Verif.Ext.C163_offsets_partial",
    "Verif.Ext.C163_endless_refuted",
    "Verif.Ext.C163_hulls_partial",
    "Verif.Ext.C163_run_partial",
    "Verif.Ext.C163_points_refuted",
    "Verif.Ext.C163_curves_refuted"
   ],
   "note": "C163_offsets_partial: C163 (offset polygons). In a drawing of lines and arcs without loose ends the cells of the drawing (the closed walks that take the leftmost way and are not clockwise, see C140) are offset; what is drawn, closed, in one layer, are the offsets of the cells, and with recursion the offsets of the offsets and so on as well — provided that they get smaller, so that there is an end to it. | C163_endless_refuted: C163, refuted (recursion without end). If every offset polygon has an offset again — as with a positive offset, or with the default 0 — the recursion never ends (Python raises `RuntimeError` at its recursion limit). | C163_hulls_partial: C163 (hulls). In a drawing of lines and arcs without loose ends: the outer hull that is drawn goes along segments of the drawing from a lowest point on, taking the leftmost way at every point, until it is back (or has as many segments as the drawing has points); with inner hulls, a second layer holds the polygons of C159, each strictly inside the outer hull and the inner ones drawn before it, unless there are none. | C163_run_partial: C163 (the run). For every drawing of lines and arcs with two different points at least, and without loose ends if offsets or hulls are asked for (offsets of offsets must get smaller), the run ends without an exception; it draws exactly the layers asked for: the paths, the longest paths, the offset polygons, the convex hull of all points that are joined and the hulls, in this order, each as it is drawn alone. | C163_points_refuted: C163, refuted (nothing to draw). If no segment of the drawing joins two different points, the default options raise `IndexError`. | C163_curves_refuted: C163, refuted (curves). A curve counts as the segment from its start to its first control point: the path drawn for a curve from `(0, 0)` to `(9, 0)` ends at `(1, 5)`."
  },
  {
   "property": "C164",
   "status": "partial",
   "theorems": [
    "Verif.Ext.C164_counts",
    "Verif.Ext.C164_tags",
    "Verif.Ext.C164_shape_key",
    "Verif.Ext.C164_layers_partial",
    "Verif.Ext.C164_succeeds_partial",
    "Verif.Ext.C164_two_arcs_refuted",
    "Verif.Ext.C164_none_refuted",
    "Verif.Ext.C164_spelling_refuted",
    "Verif.Ext.C164_other_layer_refuted",
    "Verif.Ext.C164_no_layer_refuted",
    "Verif.Ext.C164_again_refuted"
   ],
   "note": "C164_layers_partial: C164 (layers). Every fill colour has a layer named after it and the layer of its first element, with the style and the transform of that layer, and with copies of exactly the elements of this fill in their order; a layer of the document that does not have such a name stays as it was. Missing: two colours whose layers have the same name, and elements of other layers (refuted below). | C164_succeeds_partial: C164 (no exceptions). The extension finishes if the styles are well formed, the filled elements have paths that have a centroid, and, to put them on layers, all elements are in layers and no layer has the name of a layer of a colour. Missing: paths without an area (refuted below), and elements outside layers. | C164_two_arcs_refuted: C164 is false for circles drawn with two arcs, which is what Inkscape saves for a circle that is turned into a path: the extension stops with `ZeroDivisionError` at the first one that is to be tagged, whatever the circle and the other options are. | C164_none_refuted: C164 is false for elements without a fill: `fill:none` is counted as a colour. | C164_spelling_refuted: C164 is false for the colours that are seen: one colour written in two ways is counted as two. | C164_other_layer_refuted: C164 is false for elements of different layers: the copy of the second red element is put under the transform of the layer of the first one, not of its own. | C164_no_layer_refuted: C164 is false for elements outside layers: with copies on layers asked for the extension stops. | C164_again_refuted: C164 is false for a second run: the copies made by the first run are counted as well (even if the key is deleted before)."
  },
  {
   "property": "C165",
   "status": "partial",
   "theorems": [
    "Verif.Ext.C165_drawn_partial",
    "Verif.Ext.C165_all_drawn",
    "Verif.Ext.C165_circle",
    "Verif.Ext.C165_inset_refuted",
    "Verif.Geom.C165_rhombus_partial",
    "Verif.Geom.C165_area",
    "Verif.Geom.C165_largest",
    "Verif.Geom.C165_parallelogram_refuted",
    "Verif.Geom.C165_eccentricity_refuted"
   ],
   "note": "C165_drawn_partial: C165, what is drawn in a tile: for every rhombic tile that is not flat, an ellipse is drawn around the middle of the tile; it is the inscribed one with both semi-axes made shorter by the inset, and if the inset is shorter than the semi-axes (and these are not mistaken for equal) no point of it is outside the tile. | C165_inset_refuted: C165 refuted for large insets: nothing is left out when the inset is longer than a semi-axis. In a square tile of side 2 with inset 3 a circle of radius 2 is drawn, outside the tile. | C165_rhombus_partial: C165, rhombi: for every rhombus that is not flat, and every eccentricity asked for, an ellipse is returned, its centre is the middle of the rhombus, and unless its two axes are mistaken for equal it is inscribed: it touches each side between its ends and stays inside. Without an eccentricity (or with one outside the range) it touches each side in the middle, and for eccentricity 0 it is a circle. | C165_parallelogram_refuted: C165 refuted for parallelograms that are not rhombi: the semi-axes are right but they are laid along a diagonal. In a rectangle of 8 by 6 the ellipse sticks out of the rectangle. | C165_eccentricity_refuted: C165 refuted, eccentricity: asked for eccentricity 1/2 in a unit square, the function returns an ellipse whose own `eccentricity()` is not 1/2."
  },
  {
   "property": "C166",
   "status": "partial",
   "theorems": [
    "Verif.Geom.C166_eccentricity",
    "Verif.Geom.C166_curvature_partial",
    "Verif.Geom.C166_curvature_refuted"
   ],
   "note": "C166_curvature_partial: C166, curvature: for an ellipse with positive axes, centred at the origin and not rotated, `curvature(p)` at a point `p = point_at(t)` of the ellipse is the rate at which the ellipse turns to the left there. | C166_curvature_refuted: C166 refuted, curvature elsewhere: the centre and the rotation are ignored. A circle of radius 1 around (1, 0) passes through the origin, and there `curvature` raises `ValueError`."
  },
  {
   "property": "C167",
   "status": "partial",
   "theorems": [
    "Verif.Ext.C167_margins_partial",
    "Verif.Ext.C167_unclipped_refuted",
    "Verif.Ext.C167_margins_refuted",
    "Verif.Ext.C167_frame",
    "Verif.Ext.C167_no_frame"
   ],
   "note": "C167_margins_partial: C167, margins: whatever the options, if there is a clipping region, two figures are drawn: the first shows the edge of the region used for clipping, the second the edge of the box around what was plotted. | C167_unclipped_refuted: C167 refuted, no clipping: asking for the margins to be drawn without asking for clipping ends in an `AttributeError`. | C167_margins_refuted: C167 refuted, margins: what is drawn as the margins is not always the margins: clipping to the document only, the edge of the document is drawn."
  },
  {
   "property": "C168",
   "status": "partial",
   "theorems": [
    "Verif.Ext.C168_points",
    "Verif.Ext.C168_layers",
    "Verif.Ext.C168_styles",
    "Verif.Ext.C168_closed",
    "Verif.Ext.C168_ends",
    "Verif.Ext.C168_drawn_partial",
    "Verif.Ext.C168_jiggled",
    "Verif.Ext.C168_own_numbers",
    "Verif.Ext.C168_chain_refuted",
    "Verif.Ext.C168_style_refuted",
    "Verif.Ext.C168_jiggle_refuted"
   ],
   "note": "C168_drawn_partial: C168, the diagram: the first layer shows the edges of the diagram of the end points on the page, each in turn, with the tolerance of C157 at the border (and for the diagrams that are drawn rightly there); each triangle drawn is closed and has points of the diagram as corners; and without a polygon the Delaunay layer joins, for each edge, the two points whose cells it separates. | C168_chain_refuted: C168 refuted, polygon: when the lowest point of the drawing is the end of a chain of lines, clipping to the polygon raises `TypeError`, and nothing is drawn. | C168_style_refuted: C168 refuted, style: the Delaunay edges are drawn in the style of the triangles; the style `delaunay` is not used. And of a drawing with four end points or fewer no edge is drawn: the layers are empty. | C168_jiggle_refuted: C168 refuted, jiggling: with the default options the points are jiggled but the polygon is not. Then a side of the polygon may be missing from the Delaunay edges inside it: here the lower side of a square, both ends of which are moved down, although the tolerance is that of the extension."
  },
  {
   "property": "C169",
   "status": "partial",
   "theorems": [
    "Verif.Geom.C169_precision_partial",
    "Verif.Geom.C169_powers",
    "Verif.Geom.C169_refuted_large",
    "Verif.Geom.C169_refuted_error",
    "Verif.Geom.C169_round",
    "Verif.Geom.C169_round_equal_partial",
    "Verif.Geom.C169_refuted_round"
   ],
   "note": "C169_precision_partial: C169 (tolerances up to 1). `set_epsilon(v)` raises no exception for every `v` above 0 and not above 1, whatever was set before; afterwards the tolerance is `v`, its square `v²`, and the rounding precision the number of digits of the power of ten nearest to `v` in proportion, which is also the one of the format. | C169_refuted_large: C169, refuted (tolerances above 1). A tolerance of `10ᵐ` sets a precision of `m` digits *after* the decimal point, as its inverse does: with a tolerance of 100 `float_round` keeps hundredths. | C169_refuted_error: C169, refuted (exceptions). A tolerance that is not positive is refused with a `ValueError`, but only after it has been set: the precision and the format remain those of the tolerance before, and from then on no number is equal to itself. | C169_round_equal_partial: C169 (rounding with a negative power of ten as the tolerance): a number and its `float_round` are equal within the tolerance, so `float_round` moves numbers that are equal to each other less than twice the tolerance apart. | C169_refuted_round: C169, refuted (rounding). With a tolerance of 0.04, which has a precision of one digit, 0.05 and its `float_round` are not equal within the tolerance; and with a tolerance of 0.01 there are two numbers equal within the tolerance, 0.004 and 0.005, that `float_round` tells apart."
  },
  {
   "property": "C170",
   "status": "partial",
   "theorems": [
    "Verif.Geom.C170_to_grid",
    "Verif.Geom.C170_from_grid",
    "Verif.Geom.C170_offset_partial",
    "Verif.Geom.C170_few",
    "Verif.Geom.C170_refuted_clockwise",
    "Verif.Geom.C170_refuted_close"
   ],
   "note": "C170_offset_partial: C170 (counter-clockwise polygons). Let no two neighbouring vertices fall on the same point of the grid, let at least three vertices be left, and let them not be in clockwise order (`area` is positive for those). Then there is no exception; and if the library puts every vertex within `r` times the offset it is given, plus `s` of its units, of a point of the polygon it is given, then every vertex returned is within `r` times the offset, plus `s + 1` units of `10⁻ⁿ`, of a point of the polygon. | C170_refuted_clockwise: C170, refuted (clockwise polygons). Every polygon on the grid with at least three vertices, no two neighbours the same, whose vertices are in clockwise order makes `offset_polygons` fail with a `TypeError`, whatever the offset and the library; with its vertices in the opposite order there is no exception. | C170_refuted_close: C170, refuted (vertices close together). If two neighbouring vertices, other than the last two, fall on the same point of the grid, `offset_polygons` fails with an `IndexError`, whatever the rest of the polygon, the offset and the library."
  },
  {
   "property": "C171",
   "status": "partial",
   "theorems": [
    "Verif.Geom.C171_align_partial",
    "Verif.Geom.C171_refuted"
   ],
   "note": "C171_align_partial: C171 (properly cubic curves): for every curve from `p1` to `p2 ≠ p1`, in the direction `d`, that is properly cubic along and across `d`, and has no extremum within `EPSILON` of the parameter of an end: the points returned are those of the curve where it goes along or across the chord, and the box, unless there are none, is the rectangle with two sides parallel to the chord that contains the whole curve and has a point of the curve on each side. | C171_refuted: C171, refuted (symmetric curves). Every curve whose control points are equally far to the left of its chord (or to the right), as those of every symmetric bump are, makes `find_extrema_align` fail with a `ZeroDivisionError`, although it has a highest point over its chord."
  },
  {
   "property": "C172",
   "status": "partial",
   "theorems": [
    "Verif.Geom.C172_equation_partial",
    "Verif.Geom.C172_refuted"
   ],
   "note": "C172_equation_partial: C172 (`slope_intercept`): for every line that is neither vertical nor level within `EPSILON`, the equation `y = mx + b` holds exactly for the points of the line through its ends; for a line that rises or falls by less than `EPSILON` the slope is 0 and the equation is off by less than `EPSILON` between the ends. | C172_refuted: C172, refuted. `general_equation` raises a `TypeError` for every line (it raises its result), and for a vertical line of at least `EPSILON` `slope` and `slope_intercept` raise a `ZeroDivisionError`."
  },
  {
   "property": "C173",
   "status": "partial",
   "theorems": [
    "Verif.Geom.C173_segment_area",
    "Verif.Geom.C173_start_angle_partial",
    "Verif.Geom.C173_refuted"
   ],
   "note": "C173_start_angle_partial: C173 (`start_angle` about the origin): for an arc with its centre at the origin, whose first point is not within `EPSILON` of `(1, 0)`, `start_angle()` is the direction of its first point. | C173_refuted: C173, refuted (`start_angle`). For an arc with its centre elsewhere `start_angle()` measures from the direction of the point `(1, 0)`, not from that of the X axis: an arc around `(1, 1)` that starts to the right of its centre gets a right angle instead of 0."
  },
  {
   "property": "C174",
   "status": "partial",
   "theorems": [
    "Verif.Cam.C174_values_partial",
    "Verif.Cam.C174_accepted",
    "Verif.Cam.C174_rejected_partial",
    "Verif.Cam.C174_refuted_length",
    "Verif.Cam.C174_refuted_angle"
   ],
   "note": "C174_values_partial: C174, values: whatever is given, in whatever order dictionaries are run through, if the options are read without failing then the value of every option is what the text given last means for its type - with lengths in the unit of the document - or else its default: what its text means if it is a text, and otherwise the default itself; nothing else was given. | C174_rejected_partial: C174, what is not understood is reported: the first thing given that names no option, or that is no length and cannot be understood, ends the program with a message that names it (missing: lengths, see the refutation). | C174_refuted_length: C174, a part that fails: a length that cannot be understood ends in a `ValueError` instead. | C174_refuted_angle: C174, a part that fails: the reload angle of tcnc is by default not a quarter of a turn: without the option its value is 90 radians, with `--brush-reload-angle=90` it is a quarter of a turn."
  },
  {
   "property": "C175",
   "status": "partial",
   "theorems": [
    "Verif.Ext.C175_referenced",
    "Verif.Svg.C175_once",
    "Verif.Svg.C175_rest",
    "Verif.Svg.C175_again",
    "Verif.Svg.C175_refuted"
   ],
   "note": "C175_refuted: C175, refuted. It is not the case that the marker asked for is always the one that is found: if the definitions hold the id twice only the first one is taken out, an element of the drawing with the id is found instead, and without `replace` so is the old marker."
  },
  {
   "property": "C176",
   "status": "partial",
   "theorems": [
    "Verif.Svg.C176_rect",
    "Verif.Svg.C176_circle",
    "Verif.Svg.C176_style",
    "Verif.Svg.C176_text",
    "Verif.Svg.C176_refuted"
   ],
   "note": "C176_refuted: C176, refuted. Not every call writes a text: without a style, and with a list of lines that is not empty but no line height, which both are defaults, `TypeError` is raised."
  },
  {
   "property": "C177",
   "status": "partial",
   "theorems": [
    "Verif.Svg.C177_line",
    "Verif.Svg.C177_curve",
    "Verif.Svg.C177_arc",
    "Verif.Svg.C177_arc_partial",
    "Verif.Svg.C177_refuted_long"
   ],
   "note": "C177_arc_partial: C177. The command that is written means the arc, if this is at most half a turn: among all arcs between its ends of its radius, on the small side and in its direction, there is only this one. | C177_refuted_long: C177, refuted. The path data of an arc of more than half a turn (but less than a whole one) does not mean the arc: the flag says that it is the small one."
  },
  {
   "property": "C178",
   "status": "partial",
   "theorems": [
    "Verif.Ext.C178_ray",
    "Verif.Ext.C178_rays",
    "Verif.Ext.C178_convex",
    "Verif.Ext.C178_concave",
    "Verif.Ext.C178_refuted_notch",
    "Verif.Ext.C178_refuted_closed",
    "Verif.Ext.C178_refuted_rect"
   ],
   "note": "C178_refuted_notch: C178 is false as stated for the polygon that should be free of the corners that point inwards: of two in a row only the first one goes. | C178_refuted_closed: C178 is false as stated for polygons that end with their first vertex, although the function looks for it: the last corner is listed twice. | C178_refuted_rect: C178 is false as stated for another rectangle than that of the extension: a ray to the left ends at the left edge of the latter."
  },
  {
   "property": "C179",
   "status": "partial",
   "theorems": [
    "Verif.Cam.C179_appends",
    "Verif.Cam.C179_lines_and_arcs",
    "Verif.Cam.C179_continuity",
    "Verif.Cam.C179_closed_partial",
    "Verif.Cam.C179_refuted_circle",
    "Verif.Cam.C179_refuted_exception"
   ],
   "note": "C179_closed_partial: C179. `is_closed`: more than two segments, and the last one ends where the first one starts. | C179_refuted_circle: C179 is false for closed paths of two segments: a circle of two half circles, which goes on where it stopped and ends where it starts, is not closed. | C179_refuted_exception: C179 is false for the exception: a path with any other kind of segment raises `AttributeError`, not the documented `ToolpathException`."
  },
  {
   "property": "C180",
   "status": "partial",
   "theorems": [
    "Verif.Cam.C180_queries",
    "Verif.Cam.C180_position",
    "Verif.Cam.C180_refuted_flip"
   ],
   "note": "C180_refuted_flip: C180 is false for the tool flip: `flip_tool` always raises `AttributeError`, and however often it is called, the program that is generated is the one without the flips."
  },
  {
   "property": "C181",
   "status": "partial",
   "theorems": [
    "Verif.Cam.C181_accepted_partial",
    "Verif.Cam.C181_programs_partial",
    "Verif.Cam.C181_refuted_program",
    "Verif.Cam.C181_refuted_xml"
   ],
   "note": "C181_accepted_partial: C181, the dialogs whose program exists: whatever is entered in the dialog of an extension, in whatever order the fields are passed on, its program accepts all of it (in a document with a known unit), and for every field that is passed on - once - the program works with an option of that name whose value is what the text of the field means for the type of the option (missing: the dialogs without a program, see the refutation). | C181_programs_partial: C181, the programs: all dialogs but two run a program that exists, and each of these has its options in the table of `C181_accepted_partial`. | C181_refuted_program: C181, a part that fails: two dialogs run a program that does not exist. | C181_refuted_xml: C181, a part that fails: the dialog of tcnc has a comment that well-formed XML cannot have."
  },
  {
   "property": "C182",
   "status": "partial",
   "theorems": [
    "Verif.Ext.C182_nothing",
    "Verif.Ext.C182_wave",
    "Verif.Ext.C182_layer_partial",
    "Verif.Ext.C182_refuted_layer"
   ],
   "note": "C182_layer_partial: C182, the layer: it has the name of the extension or that with the first free number, it is empty before, and it is a new layer at the end of the document that turns the drawing upside down, so that the wave goes up from the lower edge of the page (if no layer of that name is there that is empty, see the refutation). | C182_refuted_layer: C182, a part that fails: an empty layer of that name is used as it is, so that the wave is not turned and starts from the upper edge."
  },
  {
   "property": "C183",
   "status": "partial",
   "theorems": [
    "Verif.Cam.C183_simplified",
    "Verif.Cam.C183_subpath_partial",
    "Verif.Cam.C183_refuted_single",
    "Verif.Cam.C183_refuted_tolerance",
    "Verif.Cam.C183_outline_partial",
    "Verif.Cam.C183_all"
   ],
   "note": "C183_subpath_partial: C183, one sub-path: if the points on the tool marks at this offset are the same or clearly apart from one mark to the next, and not all the same, then what is drawn is the smoothed form of a connected path from the point on the first mark to the point on the last one, whose lines are the simplified outline through the points (see C138); a single line is drawn as it is. (Missing: what smoothing does to it is C118.) | C183_refuted_single: C183, a part that fails: a tool path with a single tool mark, at least as long as the step, ends in a `ValueError`, and nothing is drawn. | C183_refuted_tolerance: C183, a part that fails: a negative tolerance may send the simplification into an endless recursion. | C183_outline_partial: C183, the outline: without tool marks nothing is drawn; if the ends of the marks on each side are the same or clearly apart from one mark to the next, and not all the same, then two paths are drawn, each from an end of the first mark to the corresponding end of the last one (missing: see C138)."
  },
  {
   "property": "C184",
   "status": "partial",
   "theorems": [
    "Verif.Cam.C184_header",
    "Verif.Cam.C184_listed",
    "Verif.Cam.C184_tcnc",
    "Verif.Cam.C184_again_partial",
    "Verif.Cam.C184_refuted_again",
    "Verif.Cam.C184_refuted_default"
   ],
   "note": "C184_again_partial: C184, the part about giving the settings again that holds: the settings that are listed, given as options, give every option that is neither an angle nor a length the value it had. Missing: angles and lengths, see the refutation. | C184_refuted_again: A part of C184 that fails: an angle is listed in radians and a length in user units, so that giving the listed text again gives another value. | C184_refuted_default: A part of C184 that fails: when nothing is given, an option is listed although it has its default: the default of `--blend-tolerance` is a text, its value a number."
  },
  {
   "property": "C185",
   "status": "partial",
   "theorems": [
    "Verif.Cam.C185_file",
    "Verif.Cam.C185_blank_partial",
    "Verif.Cam.C185_bad_file",
    "Verif.Cam.C185_refuted_length",
    "Verif.Cam.C185_nothing_given"
   ],
   "note": "C185_blank_partial: C185, without a file, the part that holds: if everything given is understood and no length is given, the extension is run on a new document that opens as a page of the width, height and unit given (500 by 500 pixels if none are), and all options have the values given or their defaults. Missing: lengths, see the refutation; the page is the size asked for times the size of the unit (see C131). | C185_refuted_length: The part of C185 that fails: if a length is given without a file, the lengths are converted before there is a document, which raises `AttributeError`."
  },
  {
   "property": "C186",
   "status": "partial",
   "theorems": [
    "Verif.Cam.C186_outermost",
    "Verif.Cam.C186_layer_partial",
    "Verif.Cam.C186_refuted_sublayer",
    "Verif.Cam.C186_refuted_new",
    "Verif.Cam.C186_rename",
    "Verif.Cam.C186_locked",
    "Verif.Cam.C186_refuted_name",
    "Verif.Cam.C186_selected",
    "Verif.Cam.C186_new",
    "Verif.Cam.C186_refuted_selected",
    "Verif.Cam.C186_units"
   ],
   "note": "C186_layer_partial: C186, the part that holds of \"returns the layer that the element is in\": if no layer of the document is inside another one, `get_parent_layer` returns a layer exactly if the element is or is in that layer. | C186_refuted_sublayer: C186, refuted for sub-layers: there is a document with an element whose innermost layer is not the one `get_parent_layer` returns. | C186_refuted_new: C186, refuted for layers the extension itself made: if a document whose root is not a layer has no layer of that name, then whatever is put into the layer that `create_layer` makes, unless it is a layer itself, is in no layer as far as `get_parent_layer` can tell, and neither is the layer. | C186_refuted_name: C186, refuted for the name: `get_document_name` returns nothing, and the name kept with the document is \"untitled.svg\", whatever document is opened; in particular it is so for a new document that was given a name. | C186_refuted_selected: C186, refuted for what is selected: the \"selected layer\" need not be a layer. If the id given for the layer of a new document is that of the view, the view element is the selected layer and everything is drawn into it, though the layer is there."
  },
  {
   "property": "C187",
   "status": "partial",
   "theorems": [
    "Verif.Cam.C187_depends",
    "Verif.Cam.C187_refuted_locked"
   ],
   "note": "C187_refuted_locked: C187, refuted for locked, clipped and masked layers: a layer that is locked, clipped or masked is not a different thing to cut. For every value of these attributes the programs are those of the drawing without them, and a layer can be locked."
  },
  {
   "property": "C188",
   "status": "partial",
   "theorems": [
    "Verif.Cam.C188_journey_partial",
    "Verif.Cam.C188_round_partial",
    "Verif.Cam.C188_refuted_round",
    "Verif.Cam.C188_exact"
   ],
   "note": "C188_journey_partial: C188, lines straight and arcs round, up to the test whether the machine is on the circle: every completed program over lines and arcs makes the legs of its paths, in this order and nothing else in X and Y, each with one block of the right kind. | C188_round_partial: C188, arcs: an arc that starts closer than `eps` to where the machine is, is cut round: by one circular feed in its direction, about a centre that is as far from its own as the machine is from its start. | C188_refuted_round: C188, the part that fails: there are settings and a half circle that starts within the tolerance of the tool, in X and in Y, and is nevertheless cut along its diameter: with the tool (as the generator tracks it) at the origin, `generate_segment_gcode` ends with a straight feed to the end point."
  },
  {
   "property": "C189",
   "status": "partial",
   "theorems": [
    "Verif.Cam.C189_nonpositive",
    "Verif.Cam.C189_sorted",
    "Verif.Cam.C189_flipped",
    "Verif.Cam.C189_split",
    "Verif.Cam.C189_brushed",
    "Verif.Cam.C189_offset_partial",
    "Verif.Cam.C189_tool_fillet",
    "Verif.Cam.C189_smoothing",
    "Verif.Cam.C189_repaired_partial",
    "Verif.Cam.C189_refuted_offset"
   ],
   "note": "C189_offset_partial: C189, the trail offset: the paths that are cut are the given ones in order, each moved forward by the offset of the tool (`Traced`). Missing: paths without a segment of positive length, for which the run raises (`C189_refuted_offset`); the repair of smoothness after the offset is in `C189_repaired_partial`. | C189_repaired_partial: C189, the trail offset with the repair of smoothness: whatever paths are cut, they are the given ones in order, each moved forward by the offset of the tool (`Traced`) and then repaired. Missing: the absence of errors in the repair (see C95, C119). | C189_refuted_offset: C189 fails for the trail offset if there is, among paths of lines and arcs, one without any segment between two different points, such as a line that is a dot: nothing is cut, the run raises `IndexError`, with or without the repair of smoothness."
  },
  {
   "property": "C190",
   "status": "partial",
   "theorems": [
    "Verif.Cam.C190_document_partial",
    "Verif.Cam.C190_circle",
    "Verif.Cam.C190_refuted_turn"
   ],
   "note": "C190_document_partial: C190, for settings that leave the paths alone: for every document with a size, units and at least one shape to cut, whose shapes consist of lines and arcs (of at most half a turn, such as circles and the arcs of path data; see `C190_circle`), the document opens, a program is generated, and every program that can be generated is complete and makes, for each pass, exactly the segments of the drawing where they are on the page, measured from its lower left corner: a rapid move to the start of each path, then a straight feed for each line and a circular feed for each arc, about its centre and in its direction. This holds up to the tolerance in the way of C188, and, if the paths are connected and coordinates of successive stops are the same or differ by more than the tolerance, exactly. Missing: Bezier curves and elliptical arcs (C95, C87), settings that change the paths (C189). | C190_refuted_turn: The part of C190 that fails: a circle with a transform that turns it by exactly a quarter (in either direction, such as `matrix(0 1 -1 0 0 0)`) and moves it anywhere is cut as four arcs through the right points, none of which is about the centre of the circle."
  },
  {
   "property": "C191",
   "status": "partial",
   "theorems": [
    "Verif.Cam.C191_paths",
    "Verif.Cam.C191_document_partial",
    "Verif.Cam.C191_refuted_corner"
   ],
   "note": "C191_document_partial: C191, the whole run: for every document with a size, units and at least one shape to cut, whose shapes consist of lines, arcs and Bezier curves, and settings that leave the paths alone, the document opens, a program is generated, and every program that is completed cuts, for each pass, the paths of the drawing where they are on the page (in user units, measured upwards from the lower left corner), with every curve replaced by chords and tangent arcs as in C95, each line with a straight feed and each arc with a circular feed in the way of C188; if it does not complete, then the replacement of one of the curves raises (`C95_refuted_origin`, `C191_refuted_corner`). Missing: what C95 and C188 leave open. | C191_refuted_corner: C191 without the exception for curves that cannot be replaced is refuted: a sheet with one arch, inside the page, with its first handle in the lower left corner, is not cut at all - with settings that leave the paths alone and reasonable tolerances, every run ends in an `AttributeError` before the first block of the program."
  },
  {
   "property": "C192",
   "status": "partial",
   "theorems": [
    "Verif.Cam.C192_line_arc_partial",
    "Verif.Cam.C192_line_arc_fits",
    "Verif.Cam.C192_line_arc_smooth",
    "Verif.Cam.C192_arc_line_fits",
    "Verif.Cam.C192_arc_line_smooth",
    "Verif.Cam.C192_refuted_closed",
    "Verif.Cam.C192_refuted_path",
    "Verif.Cam.C192_arc_arc_partial",
    "Verif.Cam.C192_refuted_major",
    "Verif.Cam.C192_second_arc_partial",
    "Verif.Cam.C192_first_arc_partial",
    "Verif.Cam.C192_refuted_turn"
   ],
   "note": "C192_line_arc_partial: C192, a line and the arc after it: whatever fillet is returned, the circle it is on touches the line and the circle of the arc on the side to which the arc turns; it begins on the line and ends on the circle of the arc; where it begins inside the line it begins at right angles to it and has the radius asked for, and its end is as far from its centre, up to the tolerance. Missing: that it ends within the arc and touches it there (see `C192_line_arc_fits`); fillets whose start is moved to an end of the line can have another radius; arcs that end where the line starts (`C192_refuted_closed`). | C192_refuted_closed: C192 is false of the code for a line and an arc that ends where the line starts (the outline of a segment of a disc): for the corner between the end of the line and the start of the arc the fillet of the other corner is returned, from the arc to the line: it starts on the arc, ends on the line near its start. | C192_refuted_path: C192 is false of the code (`fillet_path`): the rounded outline of a half disc of radius 8 (fillets of radius 3) goes from the start of the diameter straight to a point of the half circle next to it, and then back along the fillet of that corner to the diameter; the half circle is taken from there, from a point that is not on it. The corner at (8, 0) is gone. | C192_arc_arc_partial: C192, two arcs: whatever fillet is returned, its centre is (up to the tolerance) as far from the centres of the arcs as that of a circle of the given radius that touches both on the side to which the second turns; its ends are on the circles of the arcs, on the lines from its centre to their centres; and where the start is on the side of the centre of the fillet, its radius is the one asked for, up to the tolerance. Missing: for arcs of more than half a turn an end can be on the other side of the arc (`C192_refuted_major`); fillets whose centre is very near to the centre of an arc. | C192_refuted_major: C192 is false of the code for arcs of more than half a turn: the fillet of radius 5 between the big arc and the small one starts on the other side of the big arc, and its radius is 35. | C192_second_arc_partial: C192, the arc after a fillet: if the fillet ends on the arc, less than half a turn after its start and before its end, the arc returned is the rest of it: it starts at the end of the fillet, ends where the arc ended, has the same centre, radius and direction, and follows the arc. Missing: fillets that take away half a turn or more (`C192_refuted_turn`). | C192_first_arc_partial: C192, the arc before a fillet: if the fillet starts on the arc, less than half a turn before its end and after its start, the arc returned is the first part of it: it starts where the arc started, ends at the start of the fillet, has the same centre, radius and direction, and follows the arc. Missing: fillets that take away half a turn or more (`C192_refuted_turn`). | C192_refuted_turn: C192 as stated is false of the code: for every arc and every fillet that ends on it more than half a turn after its start (and less than a whole turn), the arc returned goes from the end of the fillet to the end of the arc and once more round the whole circle."
  },
  {
   "property": "C193",
   "status": "partial",
   "theorems": [
    "Verif.Geom.C193_corner",
    "Verif.Geom.C193_outline",
    "Verif.Geom.C193_near",
    "Verif.Geom.C193_offset_partial",
    "Verif.Geom.C193_refuted_round",
    "Verif.Geom.C193_refuted_small",
    "Verif.Geom.C193_refuted_limit"
   ],
   "note": "C193_offset_partial: C193 (counter-clockwise polygons, squared and mitered corners). Let no two neighbouring vertices fall on the same point of the grid, let at least three be left, and not in clockwise order; and let every vertex of the union that the library makes of outlines be within `s` of its units of a point of an outline. Then `offset_polygons` raises no exception, and every vertex returned is within the reach of the corners (the square root of 2 times the offset if they are squared) of a point of the polygon, plus `s + 3/2` units of `10⁻ⁿ`. Missing: that the sides of the union are those of the outlines (`Execute` is not modelled), round corners (`C193_refuted_round`). | C193_refuted_round: C193, refuted (round corners). Let no two neighbouring vertices fall on the same point of the grid, let at least three be left, not in clockwise order, and let there be a corner that is not cut back (for a positive offset, one that turns to the left, which every convex polygon has). Then `offset_polygons` with round corners fails with a `TypeError`, for every limit that is not positive and every offset of at least an eighth of a unit. | C193_refuted_small: C193, refuted (round corners, small offsets). Let no two neighbouring vertices fall on the same point of the grid and let at least three be left, not in clockwise order. With round corners and a limit that is not positive, every offset other than zero of less than an eighth of a unit of the grid makes `offset_polygons` fail with a `ValueError`, whatever the corners. | C193_refuted_limit: C193, refuted (the limit). `offset_polygons` multiplies the limit by `10ⁿ`, although the library takes it as a multiple of the offset: with a grid of tenths, a limit of 3 and an offset of 1 (10 units) the corner of the triangle is not squared off, but mitered, 5 units of the drawing (50 of the grid) from its vertex `(99, 20)`."
  },
  {
   "property": "C194",
   "status": "proved",
   "theorems": [
    "Verif.Ext.C194_drawn",
    "Verif.Ext.C194_layers",
    "Verif.Ext.C194_plain",
    "Verif.Ext.C194_run",
    "Verif.Ext.C194_rounded"
   ],
   "note": ""
  },
  {
   "property": "C195",
   "status": "partial",
   "theorems": [
    "Verif.Geom.C195_few",
    "Verif.Geom.C195_refuted",
    "Verif.Geom.C195_refuted_tolerance"
   ],
   "note": "C195_refuted: C195, refuted. For three or more points there is never a polyline: the function returns `None` or fails with a `TypeError`, whatever the points, the tolerance and the arithmetic. | C195_refuted_tolerance: C195, refuted (which). The `TypeError` is for the tolerances that, multiplied by the number of points and cut to a whole number, are more than half of that number."
  },
  {
   "property": "C196",
   "status": "partial",
   "theorems": [
    "Verif.Geom.C196_tangent_partial",
    "Verif.Geom.C196_ends",
    "Verif.Geom.C196_limits",
    "Verif.Geom.C196_normal",
    "Verif.Geom.C196_angles",
    "Verif.Geom.C196_refuted",
    "Verif.Geom.C196_refuted_slow"
   ],
   "note": "C196_tangent_partial: C196, inside the curve: the tangent at `t` is the unit vector in the direction in which the point of the curve moves, if it moves at all (with a speed above the tolerance). Missing: parameters within the tolerance of the ends but not at them, where the code returns the tangent of the end. | C196_refuted: C196 fails for a curve with both handles on its start point, which is straight and moves towards its end from the start on: its tangent at the start is the zero vector, and `start_tangent_angle` is 0 in whatever direction it goes. | C196_refuted_slow: C196 fails where the curve is slower than the tolerance: there the tangent is the zero vector."
  },
  {
   "property": "C197",
   "status": "proved",
   "theorems": [
    "Verif.Ext.C197_steps",
    "Verif.Ext.C197_layers",
    "Verif.Ext.C197_info"
   ],
   "note": ""
  }
 ]
}