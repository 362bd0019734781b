STATUS = {}
NOTES = {
'C01': 'Full for fixed scale/offset/unit configuration and no opaque/alt/renamed words; refuted when the scale, offset or unit changes between moves (stale suppressed words).',
'C02': 'Every history of motion requests; tolerance comparison exactly as the code makes it.',
'C03': 'Proved for histories without alternate tool commands; refuted with alt_tool_up / alt_tool_down.',
'C05': 'feed/feed_arc without forced words; refuted for rapid_move, which re-emits the retract.',
'C06': 'Proved when no call silently changed the recorded feed; refuted: an F-only change is recorded but not written.',
'C10': 'Code level for all comments; text level for comments free of ")" and newline; refuted otherwise (comment text can inject code).',
'C12': 'tool_down call and whole-history form.',
'C13': 'Refuted: both radii are computed from the same offsets so the check cannot fail; the emitted centre is proved correct.',
'C14': 'First call proved; every later call raises TypeError (refuted).',
'C15': 'Congruence mod a turn proved; range and readability of the G92 word refuted.',
'C18': 'All histories without normalize_axis_angle; refuted with it.',
}
