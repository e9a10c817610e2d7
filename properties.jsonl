{"id": "C01", "title": "Scroll offsets never leave the content", "statement": "After any history of scroll_up/down/left/right, scroll_to, set_viewport and set_virtual_size on a ScrollState, 0 <= offset <= max(virtual-viewport,0) on both axes, so a scrollable never shows rows or columns outside its content.", "quantifier": "every finite sequence of scroll operations with every amount, viewport and content size", "why_tests_cant": "The invariant is over unbounded operation histories; unit tests exercise short hand-picked sequences.", "anchors": ["/repo/crates/textual/src/scroll.rs: ScrollState, scroll_up, scroll_down, scroll_left, scroll_right, scroll_to, set_viewport, set_virtual_size"]}
{"id": "C02", "title": "Fractions are canonical and exact", "statement": "Every Fraction built by new or by arithmetic has a positive denominator and is in lowest terms, add/sub/mul/mul_ratio are exact on the rational value, floor is the greatest integer not above the value, and value = floor + fract with 0 <= fract < 1 for non-negative values.", "quantifier": "all numerators and denominators (including zero and negative) and all expression trees", "why_tests_cant": "Exactness and canonicity range over all integers and all chains of operations.", "anchors": ["/repo/crates/textual/src/fraction.rs: Fraction::new, floor, fract, mul_ratio, Add, Sub, Mul, gcd"]}
{"id": "C03", "title": "Region intersection is point-set intersection", "statement": "A point lies in a.intersection(b) exactly when it lies in both a and b; the operation is commutative, associative and idempotent on the point sets, and an empty result is reported exactly when no point is shared.", "quantifier": "all pairs and triples of regions and all points whose coordinates do not overflow", "why_tests_cant": "Infinitely many rectangles and points; tests sample a few overlaps.", "anchors": ["/repo/crates/textual/src/canvas.rs: Region::intersection, contains_point, is_empty"]}
{"id": "C04", "title": "Drawing never escapes the clip", "statement": "Whatever sequence of push_clip, pop_clip, put_char, put_str and render_strip calls is made, a draw call changes only cells that lie inside the canvas and inside every clip region currently pushed.", "quantifier": "every history of clip and draw calls, every text, every coordinate (negative and far off-screen included)", "why_tests_cant": "A violation needs a particular nesting of clips with a particular coordinate; tests sample a few nestings.", "anchors": ["/repo/crates/textual/src/canvas.rs: Canvas::push_clip, pop_clip, current_clip, put_char, put_str, put_grapheme, render_strip"]}
{"id": "C05", "title": "Canvas accesses stay in bounds", "statement": "A canvas of w x h keeps exactly w*h cells through any history of drawing, clearing and flushing, and no draw call indexes outside the cell buffer (no panic).", "quantifier": "every canvas size and every history of calls", "why_tests_cant": "Out-of-bounds indexing depends on the combination of size, clip and coordinates.", "anchors": ["/repo/crates/textual/src/canvas.rs: Canvas::new, put_grapheme, clear, flush"]}
{"id": "C06", "title": "Differential flush reproduces the frame", "statement": "After flush, what the terminal shows (symbol, colours and attributes of every cell) is exactly the frame drawn on the canvas, whether the flush was a full redraw or a diff against the previous frame, for any sequence of frames.", "quantifier": "every pair (and by induction every sequence) of frames", "why_tests_cant": "Diff rendering bugs appear only for particular previous/next frame pairs; there are infinitely many.", "anchors": ["/repo/crates/textual/src/canvas.rs: Canvas::flush, flush_full, flush_diff, emit_cell"]}
{"id": "C07", "title": "Balanced clips restore drawing", "statement": "A block of drawing calls whose push_clip/pop_clip calls are balanced leaves the effective clip exactly as it found it.", "quantifier": "every well-bracketed call sequence", "why_tests_cant": "Nested structure of unbounded depth.", "anchors": ["/repo/crates/textual/src/canvas.rs: push_clip, pop_clip, current_clip"]}
{"id": "C08", "title": "Strip cropping selects exactly the requested cells", "statement": "crop(a,b) of a strip shows exactly cells a..b of the original with their styles (b clamped to the strip), and its cached cell length equals the width of its text.", "quantifier": "every strip of single-width graphemes, every pair of offsets", "why_tests_cant": "Off-by-one errors depend on where the cut falls relative to every segment boundary.", "anchors": ["/repo/crates/textual/src/strip.rs: Strip::crop", "/repo/crates/textual/src/segment.rs: Segment::split_at"]}
{"id": "C09", "title": "Dividing a strip loses and duplicates nothing", "statement": "Joining the pieces returned by divide at increasing cuts that end at the strip's width gives back the same cells in order.", "quantifier": "every strip and every increasing list of cut positions", "why_tests_cant": "Unbounded number of cuts and segments.", "anchors": ["/repo/crates/textual/src/strip.rs: Strip::divide, join"]}
{"id": "C10", "title": "adjust_cell_length gives the exact width", "statement": "adjust_cell_length(n) returns a strip of exactly n cells: the first n cells, padded with blanks.", "quantifier": "every strip and every target width", "why_tests_cant": "All widths on both sides of the strip length, and all segmentations.", "anchors": ["/repo/crates/textual/src/strip.rs: Strip::adjust_cell_length"]}
{"id": "C11", "title": "Text alignment keeps the text and fills the width", "statement": "text_align(left/center/right, w) of a strip no wider than w has exactly w cells, consists of the original cells surrounded by blanks, and the left padding is 0, floor(gap/2) or gap.", "quantifier": "every strip, every width at least the strip's, every alignment", "why_tests_cant": "Parity and zero-gap corner cases over all sizes.", "anchors": ["/repo/crates/textual/src/strip.rs: Strip::text_align"]}
{"id": "C12", "title": "Justified text keeps words and fills the width", "statement": "Justifying a line of several words to width w gives exactly w cells, keeps the words in order, and separates neighbours by at least one space with gaps differing by at most one.", "quantifier": "every list of words and every sufficient width", "why_tests_cant": "Distribution of leftover spaces depends on word count and width.", "anchors": ["/repo/crates/textual/src/strip.rs: Strip::justify"]}
{"id": "C13", "title": "Simplifying a strip changes nothing visible", "statement": "simplify() preserves the strip's text, width and the style of every cell.", "quantifier": "every strip", "why_tests_cant": "Any run structure of adjacent equal/unequal styles.", "anchors": ["/repo/crates/textual/src/strip.rs: Strip::simplify"]}
{"id": "C14", "title": "Style overlay is a monoid action", "statement": "Applying style b over a and then c gives the same result as applying (c over b) at once; the empty style changes nothing; a later explicit colour always wins.", "quantifier": "all triples of styles", "why_tests_cant": "Layering order is composed arbitrarily deep by nested spans and widgets.", "anchors": ["/repo/crates/textual/src/segment.rs: Style::apply, Style::is_empty"]}
{"id": "C15", "title": "Fuzzy matches are genuine", "statement": "Whenever fuzzy matching reports offsets for a query, the offsets are strictly increasing, within the candidate, one per query character, and the candidate's character at each offset is the query's character.", "quantifier": "every query and candidate string", "why_tests_cant": "Unbounded strings; the search is recursive.", "anchors": ["/repo/crates/textual/src/fuzzy.rs: match_candidate, collect_offsets, Matcher::match_score"]}
{"id": "C16", "title": "Fuzzy matching finds every subsequence", "statement": "If the query is a subsequence of the candidate then fuzzy matching reports a match.", "quantifier": "every query and candidate string", "why_tests_cant": "Completeness is a statement about all embeddings of all queries.", "anchors": ["/repo/crates/textual/src/fuzzy.rs: match_candidate"]}
{"id": "C17", "title": "Highlight markup round-trips the candidate", "statement": "Rendering the markup produced by Matcher::highlight yields exactly the candidate's text, for any candidate, including ones containing brackets and backslashes.", "quantifier": "every query and candidate", "why_tests_cant": "Escaping must work for all strings including adversarial ones.", "anchors": ["/repo/crates/textual/src/fuzzy.rs: Matcher::highlight, escape_markup", "/repo/crates/rich/src/parser/lexer.rs"]}
{"id": "C18", "title": "Scrollbar thumb stays on its track", "statement": "For every content size, window size and in-range scroll position the thumb interval lies within the track, is at least one cell long, starts at the track start at position 0 and touches the track end at the maximum position.", "quantifier": "all positive track, content and window sizes and all scroll positions", "why_tests_cant": "Rounding of proportions over all sizes.", "anchors": ["/repo/crates/textual/src/scrollbar.rs: ScrollBarRender::thumb_bounds, render_vertical, render_horizontal"]}
{"id": "C19", "title": "Keyline junctions join all lines", "statement": "Combining the line quads of overlapping keyline boxes does not depend on drawing order or repetition and never loses an arm: each arm of the result is the heaviest of the contributions.", "quantifier": "every multiset of overlapping edges", "why_tests_cant": "Any number of boxes may meet in one cell, in any order.", "anchors": ["/repo/crates/textual/src/box_drawing.rs: combine_quads, get_box_char"]}
{"id": "C20", "title": "Horizontal fr widths use up the free space exactly", "statement": "In a horizontal layout the widths given to fr children sum exactly to the space left by fixed widths and margins (when positive), each within one cell of its proportional share.", "quantifier": "every list of children, fr weights and available width", "why_tests_cant": "Largest-remainder rounding must be right for all weight vectors.", "anchors": ["/repo/crates/textual/src/layouts/horizontal.rs: HorizontalLayout::arrange"]}
{"id": "C21", "title": "Horizontal children are ordered and disjoint", "statement": "Horizontal layout returns one placement per child in order, and (for non-negative margins and widths) each child starts at or after the end of the previous one.", "quantifier": "every list of children and styles", "why_tests_cant": "Arbitrary child count and mixed units.", "anchors": ["/repo/crates/textual/src/layouts/horizontal.rs: HorizontalLayout::arrange"]}
{"id": "C22", "title": "Adjacent margins collapse to their maximum", "statement": "The gap between two neighbouring children in the stacking direction is max(previous trailing margin, next leading margin).", "quantifier": "all neighbouring pairs in all child lists (horizontal and vertical)", "why_tests_cant": "Depends on all margin combinations along the list.", "anchors": ["/repo/crates/textual/src/layouts/horizontal.rs: arrange", "/repo/crates/textual/src/layouts/vertical.rs: arrange"]}
{"id": "C23", "title": "Vertical children tile without gaps or overlap", "statement": "Vertical layout returns one placement per child in order; heights are non-negative; with non-negative margins children never overlap; with fractional positions the rounded regions still tile (next.y = y + height + margin gap).", "quantifier": "every list of children and styles", "why_tests_cant": "Accumulated rounding over arbitrarily many children.", "anchors": ["/repo/crates/textual/src/layouts/vertical.rs: VerticalLayout::arrange"]}
{"id": "C24", "title": "Grid cells are never shared", "statement": "The grid's automatic placement never assigns the same cell to two children, whatever their column and row spans, and keeps every child inside the grid's columns.", "quantifier": "every list of children with any spans, every grid size", "why_tests_cant": "Packing with spans has unbounded configurations.", "anchors": ["/repo/crates/textual/src/layouts/grid.rs: OccupancyGrid, compute_cell_assignments"]}
{"id": "C25", "title": "Grid tracks are contiguous and fill the space", "statement": "Grid track offsets increase by size plus gutter, and all-fr tracks with enough space have sizes summing exactly to the available space minus gutters.", "quantifier": "every list of track definitions and available size", "why_tests_cant": "Carry rounding over all weight vectors.", "anchors": ["/repo/crates/textual/src/layouts/grid.rs: distribute_space, resolve_tracks, GridTrackInfo::from_tracks"]}
{"id": "C26", "title": "Docked widgets hug their edge and flow avoids them", "statement": "A docked widget touches its container edge and the content region excludes every docked widget.", "quantifier": "every list of docked children, sizes and edges", "why_tests_cant": "Any combination of docks on the same and different edges.", "anchors": ["/repo/crates/textual/src/layouts/mod.rs: arrange_docked_widgets, arrange_children_with_viewport"]}
{"id": "C27", "title": "Alignment moves children rigidly", "statement": "Container alignment translates all flow placements by one common non-negative vector: relative positions and sizes are unchanged, and content that fits stays inside the container.", "quantifier": "every placement list and alignment", "why_tests_cant": "All geometries.", "anchors": ["/repo/crates/textual/src/layouts/mod.rs: apply_alignment, get_placement_bounds_with_margins"]}
{"id": "C28", "title": "Layers partition the children", "statement": "Layered layout draws every child exactly once, undefined layers below the declared ones, declared layers in their declared order, and source order within a layer.", "quantifier": "every list of children and layer declarations", "why_tests_cant": "All assignments of children to layers.", "anchors": ["/repo/crates/textual/src/layouts/mod.rs: build_layers, arrange_children_with_layers"]}
{"id": "C29", "title": "Selector matching is sound", "statement": "If a complex selector is reported to match a widget, then the widget and some of its ancestors really satisfy every compound selector with every child/descendant relation as written.", "quantifier": "every selector, widget and ancestor chain", "why_tests_cant": "Chains and selectors of unbounded length.", "anchors": ["/repo/crates/tcss/src/parser/cascade.rs: WidgetMeta::matches_complex, matches_selector"]}
{"id": "C30", "title": "Selector matching is complete", "statement": "If a widget and its ancestors satisfy a complex selector built from child and descendant combinators, it is reported to match.", "quantifier": "every selector, widget and ancestor chain", "why_tests_cant": "Greedy matching can miss embeddings only in deep, specific trees.", "anchors": ["/repo/crates/tcss/src/parser/cascade.rs: WidgetMeta::matches_complex"]}
{"id": "C31", "title": "The cascade picks the strongest declaration", "statement": "The computed value of a property is the one declared by the matching rule with the greatest (specificity, source order); properties declared by no matching rule keep their defaults.", "quantifier": "every stylesheet, widget, ancestor chain and property", "why_tests_cant": "Any number and order of rules.", "anchors": ["/repo/crates/tcss/src/parser/cascade.rs: compute_style, apply_declaration"]}
{"id": "C32", "title": "A rule is as strong as its strongest matching selector", "statement": "For a rule with a selector list, the precedence used in the cascade is that of the most specific selector of the list that matches the widget.", "quantifier": "every rule, widget and ancestor chain", "why_tests_cant": "All selector lists.", "anchors": ["/repo/crates/tcss/src/parser/cascade.rs: compute_style", "/repo/crates/tcss/src/parser/stylesheet.rs: Specificity"]}
{"id": "C33", "title": "Nesting means what its expansion means", "statement": "A nested rule with & or an implied descendant applies to exactly the widgets the nesting describes, its specificity is the sum of the parts, and flattening keeps every declaration exactly once in order.", "quantifier": "every tree of nested rules, every widget and ancestor chain", "why_tests_cant": "Nesting depth and selector lists are unbounded.", "anchors": ["/repo/crates/tcss/src/parser/flatten.rs: flatten_stylesheet, flatten_rule, combine_selectors"]}
{"id": "C34", "title": "Comments disappear and nothing else does", "statement": "Stripping comments leaves text without comment openers unchanged, leaves no comment opener behind, and is idempotent.", "quantifier": "every source text", "why_tests_cant": "All strings including unterminated and adjacent comments.", "anchors": ["/repo/crates/tcss/src/parser/mod.rs: strip_comments"]}
{"id": "C35", "title": "Variable references are replaced whole", "statement": "Resolving variables replaces each $name by its defined value matching the longest identifier (never a prefix), keeps undefined references as written, and leaves lines without $ unchanged.", "quantifier": "every source text and variable table", "why_tests_cant": "All names sharing prefixes and all line structures.", "anchors": ["/repo/crates/tcss/src/parser/variables.rs: resolve_variables, extract_variables"]}
{"id": "C36", "title": "Hex colours parse to the written value", "statement": "#rrggbb and #rrggbbaa parse to exactly the written bytes, #rgb is #rrggbb with doubled digits, letter case is irrelevant, and every other length or digit is rejected.", "quantifier": "every string", "why_tests_cant": "All 16^8 codes and all malformed strings.", "anchors": ["/repo/crates/tcss/src/types/color.rs: RgbaColor::parse_hex, parse_hex_digit, parse_hex_pair"]}
{"id": "C37", "title": "Colour blending stays between its inputs", "statement": "Each channel of a tint, blend or opacity blend with factor in [0,1] lies between the two input channels, factor 0 and 1 return the respective ends, and the result is monotone in the factor.", "quantifier": "all channel values and all factors", "why_tests_cant": "Continuous factor.", "anchors": ["/repo/crates/tcss/src/types/color.rs: tint, blend, blend_over, blend_toward"]}
{"id": "C38", "title": "Parsing a colour never crashes", "statement": "Parsing any string as a colour returns a colour or an error, never a panic.", "quantifier": "every string", "why_tests_cant": "Adversarial strings.", "anchors": ["/repo/crates/tcss/src/types/color.rs: RgbaColor::parse, parse_rgb_func, parse_hsl_func"]}
{"id": "C39", "title": "Visible text is drawn", "statement": "put_str puts every grapheme that lies inside the canvas and the clip at its column with the requested style: the lead cell holds the grapheme, the following cells of a wide grapheme are continuations, and a translucent background is composited over what was there.", "quantifier": "all canvases, clips, positions (also negative), texts and styles", "why_tests_cant": "Positions, clips and texts are unbounded; tests draw a few literals.", "anchors": ["/repo/crates/textual/src/canvas.rs: put_str, put_grapheme, resolve_background"]}
{"id": "C40", "title": "Keylines are exact and connected", "statement": "After any sequence of boxes and tables (with or without merged cells) each cell of a keyline canvas holds exactly the arms of the lines running through it; neighbouring cells agree about the line between them.", "quantifier": "every canvas size, line type and sequence of boxes and tables, also clipped ones", "why_tests_cant": "Any number of boxes and tables of any size may overlap.", "anchors": ["/repo/crates/textual/src/keyline_canvas.rs: KeylineCanvas::add_widget_box, add_grid, add_grid_with_occupancy"]}
{"id": "C41", "title": "Keyline glyphs show the lines", "statement": "Every cell touched by a keyline is drawn with a glyph that has exactly the arms of the lines there; other cells are left alone.", "quantifier": "every canvas built from boxes and tables in thin, heavy or double lines", "why_tests_cant": "The glyph table must cover every junction that any overlap can produce, and no others must be reachable.", "anchors": ["/repo/crates/textual/src/box_drawing.rs: get_box_char", "/repo/crates/textual/src/keyline_canvas.rs: KeylineCanvas::render"]}
{"id": "C42", "title": "Fractional widths do not drift", "statement": "In a horizontal container without flexible children, the left k children together occupy exactly the whole part of the sum of their exact (fractional) widths, for every k: percentages and viewport units are never off by more than one cell however many children there are.", "quantifier": "every list of children with any mix of cell, percent and viewport widths, every container size", "why_tests_cant": "Rounding errors accumulate with the number of children, which is unbounded.", "anchors": ["/repo/crates/textual/src/layouts/horizontal.rs: HorizontalLayout::arrange"]}
{"id": "C43", "title": "Minimum and maximum sizes are honoured", "statement": "In row and column layouts a child is never narrower than its min-width or wider than its max-width (min winning), and likewise for heights.", "quantifier": "every list of children, sizes, units, margins and container regions", "why_tests_cant": "Constraints interact with box sizing, fr distribution and margins in all combinations.", "anchors": ["/repo/crates/textual/src/layouts/horizontal.rs: HorizontalLayout::arrange", "/repo/crates/textual/src/layouts/vertical.rs: VerticalLayout::arrange"]}
{"id": "C44", "title": "Column fr children fill the container", "statement": "In a vertical container with a flexible child the children with their margins fill the height exactly, when the fixed children leave room.", "quantifier": "every list of children, fr weights, margins and container regions", "why_tests_cant": "Weights and margins are unbounded in number and size.", "anchors": ["/repo/crates/textual/src/layouts/vertical.rs: VerticalLayout::arrange"]}
{"id": "C45", "title": "A grid shows every child", "statement": "A grid without an explicit number of rows places all of its children: children of one cell go row by row, and no child is left out while it would fit.", "quantifier": "every number of columns and children, all spans", "why_tests_cant": "Depends on the interplay of all spans; the number of children is unbounded.", "anchors": ["/repo/crates/textual/src/layouts/grid.rs: GridLayout::arrange, GridLayout::row_count"]}
{"id": "C46", "title": "Grid children do not overlap", "statement": "The regions of two children of a grid have no cell of the screen in common.", "quantifier": "every grid, spans, gutters, margins and child sizes", "why_tests_cant": "Tracks, spans and margins combine without bound.", "anchors": ["/repo/crates/textual/src/layouts/grid.rs: GridLayout::arrange, child_region"]}
{"id": "C47", "title": "Grid keylines follow the children", "statement": "The information given to the keyline drawing names, for each cell of the grid, exactly the child that covers it (or none), and lines stand at the start of each track and at the end of the last.", "quantifier": "every grid, all spans", "why_tests_cant": "Two separate placement computations must agree for every list of spans.", "anchors": ["/repo/crates/textual/src/layouts/grid.rs: GridLayout::compute_track_info, GridTrackInfo::from_tracks"]}
{"id": "C48", "title": "Every child is placed exactly once", "statement": "Arranging the children of a container yields exactly one placement for each child, whether docked, absolute or in the flow: none is lost, none is drawn twice.", "quantifier": "every list of children, styles, layouts and container sizes", "why_tests_cant": "Every mixture of docked, absolute and flowing children.", "anchors": ["/repo/crates/textual/src/layouts/mod.rs: arrange_children_with_viewport"]}
{"id": "C49", "title": "Layout is deterministic", "statement": "Arranging the same children twice gives the same placements in the same paint order.", "quantifier": "every list of children and layer declarations, every iteration order of hash maps", "why_tests_cant": "The hash map order changes between runs; a test sees one order.", "anchors": ["/repo/crates/textual/src/layouts/mod.rs: build_layers, arrange_children_with_layers"]}
{"id": "C50", "title": "Absolute children do not disturb their siblings", "statement": "Removing the children with absolute position from a container leaves the placements of all other children unchanged.", "quantifier": "every list of children, layouts, alignments and container sizes", "why_tests_cant": "All subsets of children may be absolute.", "anchors": ["/repo/crates/textual/src/layouts/mod.rs: arrange_children_with_viewport, arrange_children_with_pre_layout"]}
{"id": "C51", "title": "An offset moves only its own widget", "statement": "Giving children offsets changes the arrangement only by translating each such child by its own offset; sizes and siblings stay as they were.", "quantifier": "every list of children, offsets in all units, layouts and alignments", "why_tests_cant": "All combinations of offsets, alignments and docks.", "anchors": ["/repo/crates/textual/src/layouts/mod.rs: apply_offset, arrange_children_with_viewport"]}
{"id": "C52", "title": "Markup shows exactly the text outside its tags", "statement": "Parsing markup yields the source text with every tag removed and every escape replaced by the escaped character, and nothing else; text passed through the escaping function parses back to itself without any style.", "quantifier": "every markup source and every plain text", "why_tests_cant": "Adversarial strings with brackets and backslashes in any arrangement are unbounded.", "anchors": ["/repo/crates/rich/src/parser/lexer.rs: Lexer", "/repo/crates/rich/src/parser/markup.rs: parse", "/repo/crates/textual/src/fuzzy.rs: escape_markup", "/repo/crates/textual/src/command.rs: escape_markup"]}
{"id": "C53", "title": "Markup spans are well formed", "statement": "Every span of a parsed markup covers a non-empty range of whole characters within the text and sets a style or metadata, and any two spans are disjoint or nested.", "quantifier": "every markup source, including mismatched and unclosed tags", "why_tests_cant": "All nestings of tags, and multi-byte characters at every position.", "anchors": ["/repo/crates/rich/src/parser/markup.rs: create_span_from_entry, pop_style, pop_style_matching, close_all_remaining"]}
{"id": "C54", "title": "Segments make up the text and have one style each", "statement": "Iterating over the segments of a parsed markup never panics; the pieces are non-empty, concatenate to the text, and every position inside a piece has the style and metadata reported for that piece.", "quantifier": "every markup source; every markup value with spans on character boundaries", "why_tests_cant": "Spans can overlap in arbitrarily many ways.", "anchors": ["/repo/crates/rich/src/markup.rs: SegmentIterator::next, style_at"]}
{"id": "C55", "title": "The innermost tag decides", "statement": "Each character has the modifiers of all tags open around it, and its colours are those of the innermost open tag that sets them.", "quantifier": "every markup source and position", "why_tests_cant": "Any depth and order of nesting.", "anchors": ["/repo/crates/rich/src/markup.rs: style_at, SegmentIterator::next", "/repo/crates/rich/src/parser/markup.rs: create_span_from_entry"]}
{"id": "C56", "title": "Parsing markup never panics", "statement": "Parsing returns a result or an error for every input string.", "quantifier": "every string", "why_tests_cant": "Byte and character indices differ only for non-ASCII input in particular places.", "anchors": ["/repo/crates/rich/src/color.rs: parse_hex", "/repo/crates/rich/src/style.rs: Style::parse", "/repo/crates/rich/src/parser/tag.rs: TagContent::parse"]}
{"id": "C57", "title": "A closing tag ends what it names", "statement": "In `[t]a[/]b` and `[t]a[/t]b` exactly a is styled. A named closing tag closes the innermost open tag of that name and leaves open tags alone when there is none of that name.", "quantifier": "every tag text and enclosed text", "why_tests_cant": "All tag texts and nestings.", "anchors": ["/repo/crates/rich/src/parser/markup.rs: process_close_tag, pop_style_matching, entry_matches"]}
{"id": "C58", "title": "Shorthands stand for their longhands", "statement": "Writing a shorthand (margin, padding, border, outline, overflow, align, content-align, offset, scrollbar-size, grid-gutter with one value) anywhere in a sequence of declarations gives the same computed style as writing its longhands there in its place; a longhand sets exactly the style location of its name and leaves all others unchanged.", "quantifier": "every declaration sequence, every value, every start style, every theme", "why_tests_cant": "All sequences of declarations and all values; every pair of properties could interfere.", "anchors": ["/repo/crates/tcss/src/parser/cascade.rs: apply_declaration", "/repo/crates/tcss/src/types/mod.rs: ComputedStyle"]}
{"id": "C59", "title": "Wrapped lines fit the width", "statement": "Every line that Content::wrap (and wrap_with_line_end) returns for a positive width is at most that many columns wide.", "quantifier": "every text, markup, width, overflow mode", "why_tests_cant": "Depends on the lengths of all words and gaps against the width.", "anchors": ["/repo/crates/textual/src/content.rs: Content::wrap, wrap_with_line_end_overflow, wrap_line, wrap_line_with_spans, break_word"]}
{"id": "C60", "title": "Wrapping loses no text", "statement": "The characters of the wrapped lines, read in order and without white space, are the characters of the text without white space, each once and in the style the markup gives it.", "quantifier": "every text, markup, width", "why_tests_cant": "A dropped or repeated word shows only for particular word lengths and span positions.", "anchors": ["/repo/crates/textual/src/content.rs: Content::wrap, wrap_with_line_end_overflow, wrap_line, wrap_line_with_spans, break_word"]}
{"id": "C61", "title": "Line end marks follow the source lines", "statement": "The wrapped lines up to and including each line with the line-end mark make up exactly one source line, in order; there are as many marks as source lines.", "quantifier": "every text, width, wrap and overflow mode", "why_tests_cant": "All combinations of empty, blank, short and long source lines.", "anchors": ["/repo/crates/textual/src/content.rs: Content::wrap_with_line_end_overflow, WrappedLine"]}
{"id": "C62", "title": "Markup styles land on the right characters", "statement": "Content::lines returns the text cut at its newlines, and each character carries the base style with every span over its byte offset applied in order, then the link style if it is part of a click link.", "quantifier": "every text with characters of any byte length, every set of spans", "why_tests_cant": "Byte offsets, line starts and overlapping spans interact.", "anchors": ["/repo/crates/textual/src/content.rs: Content::lines, lines_with_spans, render_line_with_spans"]}
{"id": "C63", "title": "Ellipsis truncation is exact", "statement": "Truncating a line to a width keeps it when it fits; otherwise the result is exactly that wide: the first width-1 columns and an ellipsis.", "quantifier": "every line, style layout and width", "why_tests_cant": "All segmentations and cut positions.", "anchors": ["/repo/crates/textual/src/content.rs: truncate_with_ellipsis"]}
{"id": "C64", "title": "The height counts the lines", "statement": "Content::height is the number of newlines plus one and equals the number of lines Content::lines returns; joining the lines with newlines gives the text back.", "quantifier": "every text", "why_tests_cant": "All placements of newlines, trailing ones included.", "anchors": ["/repo/crates/textual/src/content.rs: Content::height, lines, split_lines_preserving_trailing"]}
{"id": "C65", "title": "Wrapping is tight", "statement": "When every word fits the width, wrapping a line leaves each word whole, in order, and uses the fewest lines any arrangement of the words with single blanks needs.", "quantifier": "every plain text line whose words fit", "why_tests_cant": "Minimality compares with every possible arrangement.", "anchors": ["/repo/crates/textual/src/content.rs: Content::wrap, wrap_with_line_end_overflow, wrap_line, wrap_line_with_spans, break_word"]}
{"id": "C66", "title": "Folding is lossless", "statement": "Without wrapping, fold mode cuts each source line into pieces of exactly the width (the last may be shorter) that hold all its characters, blanks included, in order and in their styles.", "quantifier": "every text, markup and width", "why_tests_cant": "All line lengths against the width and all span layouts.", "anchors": ["/repo/crates/textual/src/content.rs: split_strip_by_width, wrap_with_line_end_overflow"]}
{"id": "C67", "title": "Link styling adds to the text style", "statement": "A click link keeps the bold, dim, italic, underline, strike and reverse attributes of its text and adds those of the link style (and of the hover style when hovered); its background and colour are those of the link style laid over what is below.", "quantifier": "every text style, link style and hover state", "why_tests_cant": "All combinations of attributes, alphas and missing colours.", "anchors": ["/repo/crates/textual/src/content.rs: apply_link_style, LinkStyle"]}
{"id": "C68", "title": "At most one widget has the focus", "statement": "Giving the focus to a widget takes it from every other one and changes nothing else; whatever sequence of focus calls is made, at most one widget is focused, and it is the one at the focus index.", "quantifier": "every widget tree and every sequence of focus operations", "why_tests_cant": "The focus flags are spread over the whole tree and every container has its own code to clear them.", "anchors": ["/repo/crates/textual/src/tree.rs: WidgetTree::set_focus_index, focus_next, focus_previous, focus_by_id", "/repo/crates/textual/src/containers/container.rs: clear_focus, focus_nth, count_focusable", "/repo/crates/textual/src/lib.rs: event loop focus fallback"]}
{"id": "C69", "title": "Tab visits every reachable widget once per round", "statement": "Pressing Tab as often as there are reachable focusable widgets focuses each of them exactly once, in document order, and ends where it began; Shift+Tab undoes Tab and the other way round.", "quantifier": "every widget tree and every starting widget", "why_tests_cant": "Depends on counting, clearing and numbering agreeing in trees of every shape.", "anchors": ["/repo/crates/textual/src/tree.rs: focus_next, focus_previous", "/repo/crates/textual/src/containers/container.rs: focus_nth, count_focusable", "/repo/crates/textual/src/containers.rs: Center, Middle"]}
{"id": "C70", "title": "Keys go to the focused widget", "statement": "After any sequence of focus calls the widget that receives the next key is the one that is focused.", "quantifier": "every widget tree and every sequence of focus operations", "why_tests_cant": "The path to the focused widget is cached and computed by another traversal than the focus itself.", "anchors": ["/repo/crates/textual/src/tree.rs: update_focus, find_focus_path_recursive, dispatch_key"]}
{"id": "C71", "title": "Focus by id", "statement": "focus_by_id gives the focus to the first visible focusable widget with that id and reports success; for any other id it changes nothing.", "quantifier": "every widget tree and id", "why_tests_cant": "The position found by one traversal is used as an index into another.", "anchors": ["/repo/crates/textual/src/tree.rs: focus_by_id, find_focus_index_by_id"]}
{"id": "C72", "title": "Queries find exactly the matching widgets", "statement": "A query counts, lists and changes exactly the widgets that match its selector, in document order; query_one changes the first and last the last of them. A selector Type#id, Type or #id matches exactly the widgets with that type and id.", "quantifier": "every widget tree, selector and change", "why_tests_cant": "Trees of every shape; the functions are separate traversals that must agree.", "anchors": ["/repo/crates/textual/src/tree.rs: find_and_apply_by_selector, find_all_and_apply, collect_matching_paths, DOMQuery, parse_simple_selector"]}
{"id": "C73", "title": "Messages bubble from the nearest ancestor up until they are stopped", "statement": "A message from the focused widget is offered to its ancestors, nearest first and each once, until one stops it; each sees the message as the previous one left it.", "quantifier": "every widget tree, focused widget, message and every set of handlers", "why_tests_cant": "Handlers are arbitrary user code.", "anchors": ["/repo/crates/textual/src/tree.rs: bubble_message, navigate_and_handle", "/repo/crates/textual/src/widget/screen.rs: handle_message", "/repo/crates/textual/src/app_widget.rs: handle_message"]}
{"id": "C74", "title": "Tree walks see every widget once", "statement": "Collecting actions returns each pending action once, in document order, and leaves none; clearing the hover state leaves no hovered widget and so no tooltip; the tooltip is that of the first hovered widget that has one.", "quantifier": "every widget tree", "why_tests_cant": "Trees of every shape and depth.", "anchors": ["/repo/crates/textual/src/tree.rs: collect_pending_actions_mut, clear_all_hover, find_hovered_tooltip_mut"]}
{"id": "C75", "title": "A key binding matches the chords it names and nothing else", "statement": "A binding is a comma-separated list of chords, each a +-separated list of modifiers and a key; a key event triggers it exactly if it is one of the chords: same key up to letter case, every named modifier held, no other modifier held except SHIFT. Blanks, letter case of the names and the order of the modifiers do not matter.", "quantifier": "every binding text and every key event", "why_tests_cant": "The binding text is a small language; its meaning is defined for every text.", "anchors": ["/repo/crates/textual/src/lib.rs: matches_binding, match_binding_part, parse_key_token, key_matches"]}
{"id": "C76", "title": "The input edits like an ordinary editor", "statement": "A typed character goes between the text before and after the cursor, Backspace and Delete remove exactly one grapheme next to the cursor, the other keys only move the cursor; after any sequence of keys text and cursor are those of an ordinary editor. A disabled or hidden input ignores keys.", "quantifier": "every sequence of keys and every text", "why_tests_cant": "Editing is a state machine over unbounded histories with indices into multi-byte text.", "anchors": ["/repo/crates/textual/src/widget/input.rs: Input::on_event, insert_char, backspace, delete", "/repo/crates/textual/src/grapheme.rs: grapheme_byte_index, grapheme_byte_range"]}
{"id": "C77", "title": "The input displays its value literally", "statement": "What an input displays is always that of its current value, placeholder, cursor and focus. The value is shown character by character even if it contains markup; with the focus exactly the grapheme at the cursor (or a blank behind the end) has the cursor style; without a value the placeholder is shown.", "quantifier": "every sequence of operations, value and placeholder", "why_tests_cant": "The value is user text that is passed through the markup parser.", "anchors": ["/repo/crates/textual/src/widget/input.rs: build_display_text, update_display, set_focus, set_value"]}
{"id": "C78", "title": "The selected option can always be chosen", "statement": "After any history of keys, clicks and new options the selected option exists, and is enabled whenever some option is. Up and Down select the nearest enabled option in their direction and change nothing if there is none; selecting a disabled option selects the nearest enabled one after it, else before it.", "quantifier": "every list of options and every sequence of operations", "why_tests_cant": "Options can be disabled and replaced at any time; the selection must stay valid over unbounded histories.", "anchors": ["/repo/crates/textual/src/widget/option_list.rs: normalize_selected, next_enabled_from, move_selection, set_selected, set_items_with_state"]}
{"id": "C79", "title": "A click chooses the option under the mouse", "statement": "The rows displayed are always those of the current options, with only the selected enabled option highlighted. A click reports the option whose lines contain the row clicked, if it is enabled, and nothing otherwise; the report names an option that exists until it is taken.", "quantifier": "every list of multi-line options, every history and every row", "why_tests_cant": "Options have any number of lines; the mapping from rows to options is a sum over all of them.", "anchors": ["/repo/crates/textual/src/widget/option_list.rs: index_for_row, on_mouse, refresh_display, take_pending_selection"]}
{"id": "C80", "title": "The palette shows exactly what was found", "statement": "In whatever order and at whatever time the command providers answer, once all answers to the current query have arrived the list of an open palette shows exactly the hits of all providers, best score first and equal scores in order of arrival; without hits it is hidden, or says that nothing matches if something was typed. Answers to earlier queries are ignored. A closed palette has no results.", "quantifier": "every set of providers, every history of user input and every schedule of answers", "why_tests_cant": "Answers are asynchronous: the result must not depend on the interleaving of typing, timers and answers.", "anchors": ["/repo/crates/textual/src/widget/command_palette.rs: start_search, apply_update, flush_pending_entries, refresh_results, close_with_selected"]}
{"id": "C81", "title": "The palette runs the command that is highlighted or clicked", "statement": "Enter runs the command of the highlighted row and a click that of the row clicked, and closes the palette; Up and Down move the highlight by one row and stop at the ends.", "quantifier": "every history of user input and every schedule of answers", "why_tests_cant": "The highlighted row and the index used on Enter are separate state that must agree after every interleaving.", "anchors": ["/repo/crates/textual/src/widget/command_palette.rs: submit, activate_selected, move_selection, handle_list_selection, update_list_widget"]}
{"id": "C82", "title": "The palette runs only commands that were offered", "statement": "Every action the palette asks for, every row it lists and every highlight it reports comes from a hit of one of its providers (or is the line that says that nothing matches).", "quantifier": "every set of providers and every history", "why_tests_cant": "Entries, pending entries, the chosen command and messages in flight survive searches, closing and new providers in many combinations.", "anchors": ["/repo/crates/textual/src/widget/command_palette.rs: apply_update, activate_selected, submit, emit_highlight"]}
{"id": "C83", "title": "Palette events tell the truth", "statement": "The events of a palette are Opened and Closed in turn, starting with Opened, with highlights only in between; the palette is open exactly if the last of the two was Opened.", "quantifier": "every history", "why_tests_cant": "Events are emitted from many places; the pattern is a property of the whole history.", "anchors": ["/repo/crates/textual/src/widget/command_palette.rs: open, close_with_selected, emit_highlight, take_events"]}
{"id": "C84", "title": "The palette gives the focus back", "statement": "If a widget had the focus when the palette was opened, whatever happens in between, the focus is given back to it once the palette is closed, not before, and only once.", "quantifier": "every history between opening and closing", "why_tests_cant": "Any sequence of operations, including reopening and new providers, may come in between.", "anchors": ["/repo/crates/textual/src/widget/command_palette.rs: open_with_focus, take_restore_focus"]}
{"id": "C85", "title": "The busy indicator is shown only while searching", "statement": "The busy indicator of the palette is shown only with the list, and goes off when the last provider has answered.", "quantifier": "every set of providers and every schedule of answers and timers", "why_tests_cant": "The indicator is set by a timer and cleared by answers; it depends on the interleaving and on the time between updates.", "anchors": ["/repo/crates/textual/src/widget/command_palette.rs: apply_update, refresh_results, spawn_busy_timer, sync_visibility_classes"]}
{"id": "C86", "title": "A chosen command is run by confirming it", "statement": "Without run_on_select, Enter fills in the text of the highlighted command and hides the list, and a second Enter runs that command, whatever the runtime does in between and however the cursor is moved.", "quantifier": "every history and every schedule of answers", "why_tests_cant": "Answers and timers that are still outstanding arrive between the two keys.", "anchors": ["/repo/crates/textual/src/widget/command_palette.rs: activate_selected, submit, apply_update"]}
{"id": "C87", "title": "Restyling only what changed is enough", "statement": "Style a widget tree once, change classes, states, visibility, inline styles or children of any widgets in any order with redraws in between: after a redraw, which restyles only dirty widgets, every visible widget has the style the stylesheet gives for its present state and that of its ancestors. Restyling changes nothing else, and a redraw without changes does nothing.", "quantifier": "every widget tree, every stylesheet and every history of changes and redraws", "why_tests_cant": "The dirty flags are spread over the widget types; what is left stale depends on the whole history and on the shape of the tree.", "anchors": ["/repo/crates/textual/src/style_resolver.rs: resolve_styles, resolve_dirty_styles", "/repo/crates/textual/src/widget.rs: is_dirty, mark_clean, set_style, get_style, get_meta", "/repo/crates/textual/src/containers/container.rs: get_meta, set_children", "/repo/crates/textual/src/widget/screen.rs: is_dirty, mark_clean"]}
{"id": "C88", "title": "Text colour and visibility are inherited from the nearest widget that sets them", "statement": "After a redraw the text colour of a visible widget is the one set inline or by the stylesheet on the nearest of it and its ancestors that sets one, and the theme's foreground if none does; the same holds for visibility, which is visible if nothing sets it. The background a widget is contrasted with or blended into is the one painted by its ancestors from the root down.", "quantifier": "every tree, stylesheet and history", "why_tests_cant": "Trees have any depth and any widget on the way may set the property.", "anchors": ["/repo/crates/textual/src/style_resolver.rs: apply_inheritance, build_inherited_context, from_theme"]}
{"id": "C89", "title": "Inline colours win over the stylesheet", "statement": "A widget at full opacity with an inline text colour or an inline background is painted in that colour or on that background, whatever the stylesheet says.", "quantifier": "every stylesheet, every widget and every colour", "why_tests_cant": "It must hold against every combination of declarations, inheritance and tints.", "anchors": ["/repo/crates/tcss/src/types/mod.rs: StyleOverride::apply_to, effective_background", "/repo/crates/textual/src/style_resolver.rs: resolve_dirty_styles", "/repo/crates/textual/src/widget/static_widget.rs: rendering_style"]}
{"id": "C90", "title": "Every line of a widget fills exactly its width", "statement": "Every line drawn for a widget with any border, padding, outline, title and subtitle takes exactly the number of columns the widget has.", "quantifier": "every style, width, height, row, content and label, whatever was drawn before", "why_tests_cant": "Borders, keylines, padding, outlines, labels and alignments combine freely; each combination takes its own path.", "anchors": ["/repo/crates/textual/src/render_cache.rs: RenderCache::new, render_line, apply_outline", "/repo/crates/textual/src/border_render.rs: render_row, render_label_in_row"]}
{"id": "C91", "title": "Content is drawn where inner_size says it is", "statement": "A widget's content area is its size less one row or column per drawn edge (none and hidden take no room, hkey none at the sides, vkey none at top and bottom) and less the padding. In a content row, column k of the content is drawn at column border + padding + k, is cut at the reported width and filled up with the background.", "quantifier": "every style, size, row and content", "why_tests_cant": "The content area and the drawing are computed separately; they must agree for every style and size.", "anchors": ["/repo/crates/textual/src/render_cache.rs: inner_size, render_content_row, render_partial_middle_row"]}
{"id": "C92", "title": "Titles and subtitles are shown whole if they fit", "statement": "A title is shown in the first row and a subtitle in the last row of a widget with a border: whole, and at the left, centre or right as asked, if it fits beside the border characters, otherwise cut short with an ellipsis.", "quantifier": "every style, label, alignment and width of at least six columns", "why_tests_cant": "Length, width and alignment vary without bound and four drawing paths exist.", "anchors": ["/repo/crates/textual/src/border_render.rs: render_label_in_row", "/repo/crates/textual/src/render_cache.rs: render_horizontal_border_row, render_labeled_middle_row"]}
{"id": "C93", "title": "An outline covers the edge and moves nothing", "statement": "With an outline, the outermost columns and rows of a widget show the outline and all other columns are exactly as they are without it.", "quantifier": "every style, size, row, content and label", "why_tests_cant": "It compares two renderings for every combination of border, padding, label and outline.", "anchors": ["/repo/crates/textual/src/render_cache.rs: apply_outline, render_line"]}
{"id": "C94", "title": "Each edge is drawn in the characters of its own border", "statement": "The row or column of each edge with a border shows the characters of the kind of border given for that edge.", "quantifier": "every combination of kinds on the four edges, every size and row", "why_tests_cant": "There are over a hundred thousand combinations of kinds, times sizes.", "anchors": ["/repo/crates/textual/src/render_cache.rs: RenderCache::new, build_border_box_per_edge", "/repo/crates/textual/src/border_chars.rs: BORDER_CHARS", "/repo/crates/textual/src/border_box.rs: generate_box"]}
{"id": "C95", "title": "Border colours do not depend on what was drawn before", "statement": "A widget's lines depend on its own style and content only, not on other widgets drawn earlier; each edge of an opaque widget's border is drawn in the colour given for that edge, or else in the text colour.", "quantifier": "every history of drawn widgets, every style", "why_tests_cant": "Boxes are remembered in a process-wide table; a wrong hit depends on the whole history.", "anchors": ["/repo/crates/textual/src/border_box.rs: get_box, StyleKey, BOX_CACHE", "/repo/crates/textual/src/render_cache.rs: resolve_edge_color"]}
{"id": "C96", "title": "A click finds exactly the link that is shown there", "statement": "A column of a static text shows part of a link if and only if a click on it finds that link, in every row, whatever the border, padding, alignment and wrapping.", "quantifier": "every text, style, size, label and position, whatever was drawn before", "why_tests_cant": "Link regions are computed apart from the drawing; they must agree for every layout.", "anchors": ["/repo/crates/textual/src/widget/static_widget.rs: render, extract_link_regions, find_link_at"]}
{"id": "C97", "title": "Text is placed as content-align and text-align ask", "statement": "A static text fills its content area exactly. Text that fits is shown whole, in consecutive rows, with the free rows and columns divided as content-align asks and each line placed in the block as text-align asks; all else is blank.", "quantifier": "every list of lines, size and alignment", "why_tests_cant": "Line lengths and sizes vary without bound; centring must round the same way everywhere.", "anchors": ["/repo/crates/textual/src/widget/static_widget.rs: align_content"]}
{"id": "C98", "title": "The last link clicked is the action taken, the last one moved to is highlighted", "statement": "The pending action is that of the last click on a link since an action was last taken; the highlighted link is the one under the last pointer move inside the widget, unless the pointer left since. Each change asks for a redraw.", "quantifier": "every history of drawings, mouse events, leaves and takes", "why_tests_cant": "It quantifies over all histories.", "anchors": ["/repo/crates/textual/src/widget/static_widget.rs: on_mouse, clear_hover, take_pending_action"]}
{"id": "C99", "title": "Changing styles moves nothing", "statement": "Restyling a text or highlighting a link changes neither the characters shown nor where its links are.", "quantifier": "every text with any spans, two styles, any highlighted link, every size", "why_tests_cant": "It compares two renderings for every text and style.", "anchors": ["/repo/crates/textual/src/widget/static_widget.rs: render", "/repo/crates/textual/src/content.rs: wrap, apply_link_styles"]}
{"id": "C100", "title": "A static of automatic height shows all its text", "statement": "The height a static text asks for, for a width, is exactly its chrome plus the lines its text takes at that width.", "quantifier": "every text, style, width and label, whatever was drawn before", "why_tests_cant": "Measuring and drawing wrap separately, for unboundedly many texts and widths.", "anchors": ["/repo/crates/textual/src/widget/static_widget.rs: intrinsic_height_for_width, render"]}
{"id": "C101", "title": "A static of automatic width shows each line unbroken", "statement": "The width a static text asks for leaves room for exactly its longest line, and at that width each line of the text takes one row.", "quantifier": "every text and style, whatever was drawn before", "why_tests_cant": "Measuring and wrapping differ in code; they must agree for every text.", "anchors": ["/repo/crates/textual/src/widget/static_widget.rs: desired_size, render"]}
{"id": "C102", "title": "Scrollbars are shown exactly when needed", "statement": "A scrolling container shows a scrollbar on an axis exactly if its overflow is `scroll`, or `auto` and the content, laid out in the room beside the bars shown, sticks out; the children are laid out in that room; and no bar is shown that could be left out.", "quantifier": "every content, area, screen size and style", "why_tests_cant": "The two bars take room from each other, so the choice is a fixed point; tests try single sizes.", "anchors": ["/repo/crates/textual/src/containers/scrollable.rs: compute_scroll_layout, content_region_with_flags, compute_virtual_size"]}
{"id": "C103", "title": "Content, scrollbars and corner share the area without overlap", "statement": "Every cell inside the chrome of a scrolling container belongs to exactly one of the content area, the vertical bar, the horizontal bar and the corner, and none of them has a cell outside.", "quantifier": "every area, bar size and choice of bars", "why_tests_cant": "An off-by-one shows only at some sizes and only with both bars.", "anchors": ["/repo/crates/textual/src/containers/scrollable.rs: content_region_with_flags, vertical_scrollbar_region_with_flags, horizontal_scrollbar_region_with_flags, corner_region"]}
{"id": "C104", "title": "The scrolled window stays inside the content", "statement": "After any history of drawing, keys, mouse events and changes of content and size, the window of a scrolling container shows nothing before the start or past the end of the content, an axis with hidden overflow is never scrolled, and every row can be reached with the keys.", "quantifier": "every history of events, contents and regions", "why_tests_cant": "The position depends on the whole history of events and sizes.", "anchors": ["/repo/crates/textual/src/containers/scrollable.rs: on_event, on_mouse, render, handle_scroll, handle_vertical_scrollbar_click, handle_scrollbar_drag"]}
{"id": "C105", "title": "A dragged scrollbar follows the pointer", "statement": "While a scrollbar is held, its thumb is drawn where the pointer holds it, a drag without movement does not scroll, and dragging to the end of the bar scrolls to the end.", "quantifier": "every content and window size, place of the grip and pointer", "why_tests_cant": "Rounding goes one way when drawing and another when dragging; few sizes show the difference.", "anchors": ["/repo/crates/textual/src/containers/scrollable.rs: handle_scrollbar_drag, handle_vertical_scrollbar_click", "/repo/crates/textual/src/scrollbar.rs: thumb_bounds"]}
{"id": "C106", "title": "The mouse reaches the child seen under the pointer", "statement": "A mouse event over a scrolling container goes to the child drawn on top at the pointer, with the region it was drawn in; no child gets an event at a place where it is not seen.", "quantifier": "every layout, scroll position, style and pointer", "why_tests_cant": "Drawing and mouse handling compute the layout separately; they must agree at every cell.", "anchors": ["/repo/crates/textual/src/containers/scrollable.rs: on_mouse, on_mouse_with_sender, render, compute_scroll_layout"]}
{"id": "C107", "title": "A container draws the layout its children now need", "statement": "Whatever has been drawn, clicked or changed before, a plain container draws its children at the places the layout gives for the children it now has.", "quantifier": "every history of drawings, mouse events, changes of style, resizes and replaced children", "why_tests_cant": "The layout is remembered between uses; an outdated one shows only after particular orders of events.", "anchors": ["/repo/crates/textual/src/containers/container.rs: compute_child_placements, render, mark_dirty, set_children, set_style, on_resize"]}
{"id": "C108", "title": "All content of a container can be scrolled into view", "statement": "If content is larger than a plain container that scrolls, each cell of it can be brought into view with the wheel.", "quantifier": "every content, size, style and history", "why_tests_cant": "The position is cut back on every drawing, by sizes that depend on the bars; which rows are lost depends on the sizes.", "anchors": ["/repo/crates/textual/src/containers/container.rs: render, on_mouse, content_region_for_scroll, show_vertical_scrollbar, show_horizontal_scrollbar"]}
{"id": "C109", "title": "The mouse reaches the child seen under the pointer of a plain container", "statement": "A mouse event over a plain container is given only to children drawn at the pointer, each with the region it was drawn in, and to all of them until one answers.", "quantifier": "every layout, style, history and pointer", "why_tests_cant": "Drawing and mouse handling compute the places separately; they must agree at every cell.", "anchors": ["/repo/crates/textual/src/containers/container.rs: on_mouse, on_mouse_with_sender, render"]}
{"id": "C110", "title": "Scroll commands move by their amount", "statement": "In a scrolling container, a key, a turn of the wheel or a press beside the thumb moves the position by just its amount (one cell, nine tenths of the window, or all the way) in its direction, or to the end if that is nearer, only along axes that may scroll; a press on the thumb takes hold of it; a key that moves nothing is left to the children.", "quantifier": "every position, size, style, key and pointer", "why_tests_cant": "Amounts depend on the window, directions on modifiers and styles; all combinations matter.", "anchors": ["/repo/crates/textual/src/containers/scrollable.rs: on_event, on_mouse, handle_scroll, handle_vertical_scrollbar_click, handle_horizontal_scrollbar_click", "/repo/crates/textual/src/scroll.rs: scroll_to, scroll_up, scroll_down"]}
{"id": "C111", "title": "A screen's responsive classes are those of its size", "statement": "After a resize the screen has, for each axis, just the class of the last listed breakpoint that is reached (the greatest one, if they are listed in rising order), whatever the sizes before; and if the classes differ from those of the last drawing a redraw has been asked for.", "quantifier": "every list of breakpoints and history of sizes and drawings", "why_tests_cant": "Any sequence of resizes can come before; classes must not linger.", "anchors": ["/repo/crates/textual/src/widget/screen.rs: update_breakpoints, on_resize, Breakpoint, horizontal_breakpoints, vertical_breakpoints"]}
{"id": "C112", "title": "The bars of a screen are the ones needed and cover no content", "statement": "A screen shows a scrollbar just if its style always asks for it, or allows it and the children do not fit; bars and children share no cell and fill the inner region.", "quantifier": "every layout, style, region and position", "why_tests_cant": "Bars take room from the children, which changes whether they fit.", "anchors": ["/repo/crates/textual/src/widget/screen.rs: render, show_vertical_scrollbar, show_horizontal_scrollbar, content_region_for_scroll, vertical_scrollbar_region, horizontal_scrollbar_region"]}
{"id": "C113", "title": "The mouse reaches the child seen under the pointer of a screen", "statement": "After a drawing, a mouse event other than the wheel is given only to a child drawn at the pointer, with the region it was drawn in, and to the child drawn there if children do not overlap.", "quantifier": "every layout, style, position and pointer", "why_tests_cant": "Drawing and mouse handling compute the places separately; they must agree at every cell.", "anchors": ["/repo/crates/textual/src/widget/screen.rs: on_mouse, on_mouse_with_sender, dispatch_mouse_to_children, render"]}
{"id": "C114", "title": "Each row of a screen that may scroll can be reached with the wheel", "statement": "If the screen may scroll vertically, each cell of each child in a column of the visible area can be brought into view by turning the wheel anywhere on the screen.", "quantifier": "every layout, style, region, position and pointer", "why_tests_cant": "The position is cut back on every drawing and event, by sizes that depend on the bars.", "anchors": ["/repo/crates/textual/src/widget/screen.rs: on_mouse, on_mouse_with_sender, render"]}
{"id": "C115", "title": "A widget has the classes it was given", "statement": "After any calls that add, remove, toggle, conditionally set or replace classes, a widget has a class just if the last call about it said so; and if its classes changed it is marked for restyling.", "quantifier": "every widget, class and sequence of calls", "why_tests_cant": "Duplicates and wrappers only show after certain sequences of calls.", "anchors": ["/repo/crates/textual/src/widget.rs: Widget::add_class, remove_class, toggle_class, set_class, has_class, set_classes", "/repo/crates/textual/src/widget/static_widget.rs: add_class, remove_class, with_classes"]}
{"id": "C116", "title": "A button has the classes of its variant, style and compactness", "statement": "Whatever the calls, a button has the class of the variant last asked for and of no other variant, the class of its style and not of the other, and the compact class just if last asked to be compact; and changing one of them marks it for restyling.", "quantifier": "every sequence of calls", "why_tests_cant": "The classes are kept by removing the old and adding the new; any sequence could leave a stale one.", "anchors": ["/repo/crates/textual/src/widget/button.rs: set_variant, set_flat, set_compact, with_classes, add_class, remove_class, set_classes"]}
{"id": "C117", "title": "A stable gutter keeps the layout still", "statement": "With a stable scrollbar gutter, the columns in which children are laid out and shown do not depend on whether the children need a scrollbar.", "quantifier": "every layout, style and region", "why_tests_cant": "It compares two drawings with different contents; any pair matters.", "anchors": ["/repo/crates/textual/src/containers/scrollable.rs: content_region", "/repo/crates/textual/src/containers/container.rs: render", "/repo/crates/textual/src/widget/screen.rs: render, content_region_for_scroll"]}
{"id": "C118", "title": "A switch tells its value", "statement": "The value of a switch is the one last set by the program or told by one of its messages; a key toggles it just if it is Space or Enter and the switch has the focus, is enabled and not loading; and a switch that looks different from its last drawing is marked for redrawing.", "quantifier": "every history of keys, mouse events and calls", "why_tests_cant": "Any interleaving of input, calls and redraws can come before.", "anchors": ["/repo/crates/textual/src/widget/switch.rs: set_value, tick_spinner, on_event, on_mouse, set_focus, set_hover, set_active, clear_hover, set_visible, set_loading, set_disabled"]}
{"id": "C119", "title": "A click is a press and a release on the same widget", "statement": "A mouse event toggles a switch, or sends the message or runs the action of a button (never both), just if it releases over the enabled widget a mouse button that went down on it; and a button fires no more often than it was pressed.", "quantifier": "every history of mouse events, keys and calls", "why_tests_cant": "Presses, drags, releases and moves on and off the widget come in any order.", "anchors": ["/repo/crates/textual/src/widget/switch.rs: on_mouse, clear_hover", "/repo/crates/textual/src/widget/button.rs: on_mouse, press, clear_hover, take_pending_action", "/repo/crates/textual/src/lib.rs: event_loop", "/repo/crates/textual/src/tree.rs: clear_all_hover, collect_pending_actions_mut"]}
{"id": "C120", "title": "A widget is shown hovered while the pointer is on it", "statement": "A switch or a button is shown hovered just if the pointer is on it.", "quantifier": "every history of mouse events, keys and calls", "why_tests_cant": "Hovering is set and cleared by different events in any order.", "anchors": ["/repo/crates/textual/src/widget/switch.rs: on_mouse, set_hover, clear_hover", "/repo/crates/textual/src/widget/button.rs: on_mouse, set_hover, clear_hover", "/repo/crates/textual/src/tree.rs: clear_all_hover"]}
{"id": "C121", "title": "The terminal is given back as it was", "statement": "However the program ends, by quitting, by an error or by a panic of a handler, raw mode, alternate screen, hidden cursor and mouse capture are undone, and the result of the loop is returned.", "quantifier": "every way the loop can end and every set of failing terminal commands", "why_tests_cant": "Tests do not fail terminal commands half way nor panic inside the loop.", "anchors": ["/repo/crates/textual/src/lib.rs: App::run_inner"]}
{"id": "C122", "title": "The screen shows what the widgets look like", "statement": "Whenever the program waits for the next event, the terminal shows the view of the widgets as they are; mouse events, new sizes, the palette's shortcut and moves of the focus bring it up to date in any case.", "quantifier": "every program, handlers and history of events", "why_tests_cant": "Staleness depends on which events follow which; every history matters.", "anchors": ["/repo/crates/textual/src/lib.rs: App::event_loop_async, needs_recompose, focus_index"]}
{"id": "C123", "title": "What widgets keep survives events", "statement": "State kept by widgets (focus moved with Tab, scroll positions, typed text, the open palette) survives events that do not change it, also for programs that ask for a rebuild after every event, as the documentation suggests.", "quantifier": "every program, tree and event", "why_tests_cant": "It is about arbitrary widget state and handlers.", "anchors": ["/repo/crates/textual/src/lib.rs: App::event_loop_async, needs_recompose, compose"]}
{"id": "C124", "title": "A tooltip is shown while the mouse rests", "statement": "A tooltip is shown just if the mouse has rested for the delay at a place with that tooltip and no other mouse event came since; it disappears at once with any other mouse event or move.", "quantifier": "every history of moves, clicks, ticks and rebuilds, any delay", "why_tests_cant": "Timing and order of events can be any.", "anchors": ["/repo/crates/textual/src/lib.rs: App::event_loop_async, tooltip_delay", "/repo/crates/textual/src/widget/tooltip.rs: show, hide"]}
{"id": "C125", "title": "A tooltip is drawn whole, beside the mouse", "statement": "A tooltip that is shown and not larger than the screen is drawn whole, just below the mouse, never off the screen.", "quantifier": "every position, text, screen size and history", "why_tests_cant": "The edges of the screen matter for each size.", "anchors": ["/repo/crates/textual/src/lib.rs: App::event_loop_async", "/repo/crates/textual/src/widget/tooltip.rs: render"]}
{"id": "C126", "title": "Messages are handled once, in the order sent", "statement": "While the program runs, each message posted or sent by a timer or interval is handled exactly once, in the order of sending, with the identity of its sender.", "quantifier": "every schedule of tasks, posts and receipts", "why_tests_cant": "The interleaving of tasks and the loop is up to the scheduler.", "anchors": ["/repo/crates/textual/src/context.rs: AppContext::post, with_sender_info", "/repo/crates/textual/src/message.rs: MessageEnvelope::new", "/repo/crates/textual/src/lib.rs: App::event_loop_async"]}
{"id": "C127", "title": "A timer fires once, after its delay", "statement": "A timer sends its message exactly once, never before its delay is over, with the identity of the widget that set it.", "quantifier": "every schedule, delay and message", "why_tests_cant": "Tests see one schedule; earliness and duplication depend on it.", "anchors": ["/repo/crates/textual/src/context.rs: AppContext::set_timer"]}
{"id": "C128", "title": "An interval fires once per period until cancelled", "statement": "An interval sends the messages of its function in order, never more than one per period passed since it was set, none missing if its task runs; once cancelled or its handle dropped it sends nothing more.", "quantifier": "every schedule, period, message function and moment of cancellation", "why_tests_cant": "Late tasks catch up and cancellation races with ticks; the schedule decides.", "anchors": ["/repo/crates/textual/src/context.rs: AppContext::set_interval, IntervalHandle::cancel, IntervalHandle::drop"]}
{"id": "C129", "title": "Stylesheets are read as they are written", "statement": "Parsing a stylesheet gives exactly the rules written in it, in their order, with their selectors, combinators, declarations and nested rules, whatever the blanks and comments between them; a rule is never lost without an error.", "quantifier": "every stylesheet written by the grammar, of any length and nesting", "why_tests_cant": "Stylesheets can be nested and combined in any way; parsers fail where two constructs meet.", "anchors": ["/repo/crates/tcss/src/parser/mod.rs: parse_stylesheet, parse_rule, parse_rule_items, parse_single_declaration", "/repo/crates/tcss/src/parser/selectors.rs: parse_selectors, parse_complex_selector, parse_compound_selector"]}
{"id": "C130", "title": "Every property has the value that is written", "statement": "Each of the 91 properties gets exactly the value written after it (numbers with units, colours with alpha, keywords in any case, lists, shorthands), up to the semicolon or brace, also before !important.", "quantifier": "every property, every value of its grammar, any number of digits, any list length", "why_tests_cant": "Values are unbounded and what follows a value matters to where it ends.", "anchors": ["/repo/crates/tcss/src/parser/values.rs: all parsers", "/repo/crates/tcss/src/parser/units.rs: all parsers", "/repo/crates/tcss/src/parser/mod.rs: parse_single_declaration"]}
{"id": "C131", "title": "No stylesheet crashes the program", "statement": "Reading a stylesheet returns rules or an error, whatever the text; it never panics.", "quantifier": "every text, of any length", "why_tests_cant": "A crash needs one text among infinitely many; tests only read sensible stylesheets.", "anchors": ["/repo/crates/tcss/src/parser/mod.rs: parse_stylesheet", "/repo/crates/tcss/src/parser/values.rs: parse_color", "/repo/crates/tcss/src/types/color.rs: RgbaColor::parse, parse_rgb, parse_hsl"]}
{"id": "C132", "title": "A screenshot shows the text of the canvas", "statement": "An SVG screenshot shows every character of the canvas in its place, with its colour and attributes, and no others; a title that is asked for is shown.", "quantifier": "every canvas, every mix of styles and wide characters, every row length", "why_tests_cant": "Runs of cells are merged; what is lost depends on where styles change.", "anchors": ["/repo/crates/textual/src/svg.rs: SvgRenderer::render, write_text, StyleCollector", "/repo/crates/textual/src/canvas.rs: Canvas::to_svg"]}
{"id": "C133", "title": "A screenshot shows the backgrounds of the canvas", "statement": "In an SVG screenshot every cell is covered by its own background colour and by no other, and nothing is painted outside the canvas.", "quantifier": "every canvas", "why_tests_cant": "Runs of cells are merged into rectangles; off-by-one errors show only in some patterns.", "anchors": ["/repo/crates/textual/src/svg.rs: SvgRenderer::write_backgrounds"]}
{"id": "C134", "title": "Screenshots are well formed and reproducible", "statement": "The text of a screenshot reads back as the text of the canvas (blanks that do not break), whatever characters it holds, and the same canvas always gives the same document.", "quantifier": "every text, every canvas, every order of the hash map", "why_tests_cant": "Hash maps are iterated in a random order; special characters are rare in tests.", "anchors": ["/repo/crates/textual/src/svg.rs: escape_xml, write_styles"]}
{"id": "C135", "title": "A coloured snapshot shows the canvas", "statement": "A terminal that is fed the coloured snapshot shows each cell of the canvas with its text, colours and attributes, in its column.", "quantifier": "every canvas, every mix of styles", "why_tests_cant": "Only changes are written, so what is shown depends on all cells before.", "anchors": ["/repo/crates/textual/src/canvas.rs: Canvas::to_ansi_snapshot"]}
{"id": "C136", "title": "Wrapped labels lose nothing", "statement": "Wrapping a placeholder's text keeps every character but white space, in order; no line is wider than the area; words are only broken when wider than the area; lines are filled as far as words fit; blank lines stay.", "quantifier": "every text, every width, every display width of characters", "why_tests_cant": "Off-by-one errors in greedy wrapping show only at exact widths and with wide characters.", "anchors": ["/repo/crates/textual/src/widget/placeholder.rs: word_wrap"]}
{"id": "C137", "title": "A placeholder draws in its area, and all of its label", "statement": "Drawing a placeholder changes no cell outside its area; its label is drawn whole in the middle of an area of at least the size it asked for.", "quantifier": "every text, area, canvas, clip, padding and variant", "why_tests_cant": "Tests look at a few sizes; areas smaller than the text are the corner.", "anchors": ["/repo/crates/textual/src/widget/placeholder.rs: Placeholder::render, desired_size, intrinsic_height_for_width"]}
{"id": "C138", "title": "A placeholder has one background", "statement": "Every cell of a placeholder's area has the same background, under its text and around it; its text has the style's colour, or black or white against that background, faded towards what is behind it by its opacity.", "quantifier": "every canvas, style, text and variant", "why_tests_cant": "Blending depends on what was drawn before in the same cell.", "anchors": ["/repo/crates/textual/src/widget/placeholder.rs: Placeholder::render"]}
{"id": "C139", "title": "Placeholder colours and clicks cycle", "statement": "Placeholders get the twelve palette colours in turn and keep them when the screen is built again; each press inside a placeholder shows the next variant and changes nothing else.", "quantifier": "every number of placeholders, every history of mouse events", "why_tests_cant": "Depends on a counter shared by all placeholders of the thread and on the whole history.", "anchors": ["/repo/crates/textual/src/widget/placeholder.rs: Placeholder::new, PLACEHOLDER_COUNTER, on_mouse"]}
{"id": "C140", "title": "A header shows its title and subtitle", "statement": "Whatever calls set the title and subtitle, the header shows the title last given, and after it, dimmed and set off by a dash, the subtitle last given (nothing if there is none); every character of both is shown.", "quantifier": "every history of title calls, every title and subtitle", "why_tests_cant": "Titles are arbitrary text, for example a path or a document name, and are read as markup.", "anchors": ["/repo/crates/textual/src/widget/header.rs: HeaderTitle, set_title, set_subtitle, clear_subtitle, format_title", "/repo/crates/textual/src/content.rs: Content::from_markup"]}
{"id": "C141", "title": "The header icon opens the palette on clicks only", "statement": "The command palette opens exactly when the primary button is pressed and then released on the icon, and no press opens it twice.", "quantifier": "every history of mouse events, focus and state changes", "why_tests_cant": "Depends on the whole history of presses, moves and releases, also outside the icon.", "anchors": ["/repo/crates/textual/src/widget/header.rs: HeaderIcon::on_mouse, set_hover, clear_hover, take_pending_action"]}
{"id": "C142", "title": "Look settings and classes agree", "statement": "A header has the class -tall exactly when it says it is tall, a label has exactly the class of its variant, a ruler has the class of its orientation, whatever other classes are set.", "quantifier": "every history of builder and class calls", "why_tests_cant": "The same list of classes is written by the setting and by the class calls, in any order.", "anchors": ["/repo/crates/textual/src/widget/header.rs: with_tall, set_tall, with_classes", "/repo/crates/textual/src/widget/label.rs: with_variant, with_classes", "/repo/crates/textual/src/widget/ruler.rs: with_classes, remove_class"]}
{"id": "C143", "title": "Rulers, spinners and scrollbar corners draw what they stand for, in their area", "statement": "A ruler shows a large tick in every fifth cell from its start and small ones in between; a spinner shows the frame of the number of its ticks; a scrollbar corner fills its area up to its own size; all change nothing outside their areas and never crash.", "quantifier": "every area, canvas, clip and history of ticks", "why_tests_cant": "Areas may be empty, partly off the canvas or clipped; ticks wrap around.", "anchors": ["/repo/crates/textual/src/widget/ruler.rs: Ruler::render, char_at", "/repo/crates/textual/src/widget/loading_indicator.rs: tick, set_visible, render", "/repo/crates/textual/src/widget/scrollbar_corner.rs: ScrollBarCorner::render"]}
{"id": "C144", "title": "The look of an application does not depend on chance", "statement": "The styles widgets bring along are kept in a set without order; two runs of the same application give every widget the same style.", "quantifier": "every tree of widgets, every stylesheet of the application, every order of the set, every widget and property", "why_tests_cant": "The order changes from run to run and with the set's content; a test sees one order, and which widgets are affected depends on what else is in the tree.", "anchors": ["/repo/crates/textual/src/lib.rs: collect_default_css, build_combined_css", "/repo/crates/tcss/src/parser/cascade.rs: compute_style"]}
{"id": "C145", "title": "The application's stylesheet overrides the widgets' own styles", "statement": "What a rule of the application says about a property of a widget is what the widget gets, whatever styles widgets bring along.", "quantifier": "every tree, every application stylesheet, every widget and property", "why_tests_cant": "Depends on the specificity and order of rules in all the default styles together.", "anchors": ["/repo/crates/textual/src/lib.rs: build_combined_css", "/repo/crates/tcss/src/parser/cascade.rs: compute_style"]}
{"id": "C146", "title": "Every widget on screen has its default styles", "statement": "For each widget in the tree, the rules of its default stylesheet are in force; and only those, the base rules and the application's.", "quantifier": "every tree at the start and every history of rebuilds", "why_tests_cant": "Widgets may first appear in a later rebuild; nesting is unbounded.", "anchors": ["/repo/crates/textual/src/lib.rs: collect_default_css, build_combined_css, run event loop (recompose)"]}
{"id": "C147", "title": "What is written in a stylesheet is what widgets get", "statement": "From the text to the style: the last declaration about a part of a style in the strongest matching rule gives the part the value written there, shorthands for all their parts; a part no matching rule mentions is left alone.", "quantifier": "every text of the stylesheet language, every widget and its ancestors, every property and part", "why_tests_cant": "Some ninety properties with their own value syntax, any nesting, any order and any spacing.", "anchors": ["/repo/crates/tcss/src/parser/mod.rs: parse_declaration", "/repo/crates/tcss/src/parser/cascade.rs: compute_style, apply_declaration", "/repo/crates/tcss/src/parser/flatten.rs: flatten_stylesheet"]}
{"id": "C148", "title": "Every documented theme variable is defined", "statement": "For every theme, each colour variable the documentation lists and each variable the default styles of the library use has a value, and a use of it in a stylesheet gives that value.", "quantifier": "every theme, dark or light, every subset of its colours given", "why_tests_cant": "Over a hundred variables made from name tables, for any choice of colours.", "anchors": ["/repo/crates/tcss/src/types/theme.rs: ColorSystem::generate, shade tables, Theme docs"]}
{"id": "C149", "title": "A theme colour only changes the variables named after it", "statement": "Changing one colour of a theme leaves all variables that are not named after it (nor derived from it by documentation) as they were.", "quantifier": "every theme, every two values of the colour, every variable", "why_tests_cant": "Variables are derived from each other; which ones depends on which colours are given.", "anchors": ["/repo/crates/tcss/src/types/theme.rs: ColorSystem::generate, defaults of secondary, warning, error, success, accent, panel, boost"]}
{"id": "C150", "title": "A colour given in a theme is the colour shown", "statement": "If a theme sets primary, error, ... to a colour, the variable of this name has exactly that colour.", "quantifier": "every theme and every opaque colour", "why_tests_cant": "Sixteen million colours go through a conversion with fractional powers.", "anchors": ["/repo/crates/tcss/src/types/theme.rs: generate, darken, lighten", "/repo/crates/tcss/src/types/color.rs: darken, lighten, to_lab, from_lab"]}
{"id": "C151", "title": "Text in an automatic colour can be read", "statement": "Text whose colour is chosen from its background differs from it in brightness by a fixed amount; the default foreground of a theme can be read on its background.", "quantifier": "every background colour, every opacity of the text colour", "why_tests_cant": "For every colour, not only black and white.", "anchors": ["/repo/crates/tcss/src/types/theme.rs: foreground default", "/repo/crates/tcss/src/types/color.rs: contrast_text, get_contrasting_color"]}
{"id": "C152", "title": "hsl() colours are the ones CSS defines", "statement": "hsl(h, s, l) gives the red, green and blue of the CSS formula, for every hue, hues counting modulo a full turn.", "quantifier": "every hue, saturation and lightness", "why_tests_cant": "Continuous ranges and six sectors with edges between them.", "anchors": ["/repo/crates/tcss/src/types/color.rs: hsl_to_rgb, hue_to_rgb, parse_hsl_func"]}
{"id": "C153", "title": "Colour functions in text are read as written", "statement": "rgb(), rgba(), hsl() and hsla() in any letter case and with any spacing give the colour with the numbers written; numbers out of range are errors; every colour read has channels from 0 to 255 and an opacity from 0 to 1.", "quantifier": "every text and number", "why_tests_cant": "Any spacing, case and number.", "anchors": ["/repo/crates/tcss/src/types/color.rs: RgbaColor::parse, parse_rgb_func, parse_hsl_func, parse_u8, parse_percentage"]}
{"id": "C154", "title": "A query is about exactly the widgets it names", "statement": "A query counts, changes, or changes the first or last of exactly the widgets its selector names that pass all filters given, in document order; each operation looks at the tree as it is then; a selector of two parts names the widgets below.", "quantifier": "every widget tree, selector, filters and change", "why_tests_cant": "Trees of any depth and arbitrary predicates.", "anchors": ["/repo/crates/textual/src/tree.rs: DOMQuery, WidgetTree::query, find_all_and_apply_filtered, find_first_filtered, collect_matching_paths_filtered"]}
{"id": "C155", "title": "A container sized by its content fits it", "statement": "A container laid out with the size it asks for has room for all its displayed children with their margins, borders and padding, and no space left over behind the last or beside the largest.", "quantifier": "every list of children, hidden or not, with any margins, borders and padding", "why_tests_cant": "Any number of children and overlapping margins of any size.", "anchors": ["/repo/crates/textual/src/containers/container.rs: calculate_intrinsic_size, desired_size", "/repo/crates/textual/src/layouts/vertical.rs: arrange", "/repo/crates/textual/src/layouts/horizontal.rs: arrange"]}
{"id": "C156", "title": "Grid lines run between the children", "statement": "With grid lines switched on, no line is drawn over a child; walking straight from one child to another one crosses a line; a line goes all around the grid. This also holds for children spanning several cells.", "quantifier": "every grid, list of children and area", "why_tests_cant": "Any number of tracks and any arrangement of spans.", "anchors": ["/repo/crates/textual/src/containers/grid.rs: Grid::render, compute_child_placements, render_keylines", "/repo/crates/textual/src/containers/container.rs: render_keylines", "/repo/crates/textual/src/keyline_canvas.rs: KeylineCanvas::add_grid_with_occupancy"]}
{"id": "C157", "title": "The mouse reaches the grid's child seen under the pointer", "statement": "A mouse event over a grid goes to the child drawn under the pointer, and to no other; the child is told the area it was drawn in. Children of a grid with lines never overlap.", "quantifier": "every grid, list of children, area and pointer position", "why_tests_cant": "Any arrangement, border and padding.", "anchors": ["/repo/crates/textual/src/containers/grid.rs: Grid::on_mouse, on_mouse_with_sender", "/repo/crates/textual/src/containers/item_grid.rs: ItemGrid::on_mouse, on_mouse_with_sender"]}
{"id": "C158", "title": "A scrollbar is held from press to release and asks to scroll where it is dragged", "statement": "A scrollbar is held from a press on its thumb until the button is released; while held, a drag asks for the position, within the content, at which the thumb is under the pointer as when it was taken; a press beside the thumb or the wheel asks for one step, back or on, along the bar's axis; nothing else asks for anything.", "quantifier": "every history of mouse events, updates and calls of the application", "why_tests_cant": "Histories of any length; all sizes and positions.", "anchors": ["/repo/crates/textual/src/widget/scrollbar.rs: ScrollBar::on_mouse, update, set_hover, set_active, clear_hover, thumb_bounds"]}
{"id": "C159", "title": "What is set on a widget is what it has", "statement": "What an application sets on a widget of the tree - visible, loading, disabled, tooltip, border title and subtitle, an added class - is what the widget answers from then on until it is set again, whatever else is set before or after; a widget that is made invisible takes no part in the layout until it is made visible again.", "quantifier": "every widget of the library, every setting, every history of calls", "why_tests_cant": "Any number of calls in any order on each kind of widget.", "anchors": ["/repo/crates/textual/src/widget.rs: Widget::set_visible, set_loading, set_disabled, set_tooltip, set_border_title, set_border_subtitle, add_class, participates_in_layout", "/repo/crates/textual/src/macros.rs: impl_widget_delegation", "/repo/crates/textual/src/containers/vertical_scroll.rs: VerticalScroll", "/repo/crates/textual/src/widget/label.rs: Label"]}
{"id": "C160", "title": "Center and Middle put their child in the middle", "statement": "A Center or Middle gives its child an area inside its own, with at most one cell more space on the far side than on the near one; put into each other they centre the child both ways at its own size; the mouse reaches the child where it is drawn, and a child that is not shown is neither drawn nor reached.", "quantifier": "every area, every child", "why_tests_cant": "All sizes, including children larger than the area and those that fill it.", "anchors": ["/repo/crates/textual/src/containers.rs: Center::centered_region, Middle::middled_region, render, on_mouse, desired_size"]}
{"id": "C161", "title": "A message names the widget it comes from", "statement": "The sender given to the application with a message of the mouse is the widget that made the message, however deep it is in the tree; asking with or without the sender gives the same message.", "quantifier": "every tree of widgets, every reaction to the event, every routing by the containers", "why_tests_cant": "Trees of any depth and shape.", "anchors": ["/repo/crates/textual/src/widget.rs: Widget::on_mouse_with_sender, SenderInfo", "/repo/crates/textual/src/containers.rs: Center, Middle", "/repo/crates/textual/src/containers/container.rs: on_mouse_with_sender"]}
{"id": "C162", "title": "What is on top gets the mouse", "statement": "The message is that of the topmost layer that answers; layers below it do not get the event, nor do layers below one that blocks the mouse.", "quantifier": "every list of layers, each answering or not, blocking or not", "why_tests_cant": "Any number of layers.", "anchors": ["/repo/crates/textual/src/widget/app_widget.rs: AppWidget::on_mouse, on_mouse_with_sender", "/repo/crates/textual/src/widget.rs: blocks_mouse_events", "/repo/crates/textual/src/lib.rs: event_loop_async"]}
{"id": "C163", "title": "Fading text changes only the colour of the text", "statement": "With a text opacity between 0 and 1 a line shows the same characters in the same columns with the same background and attributes, and the text colour is the mix of that many parts of the old colour and the rest of the background; at 1 nothing changes, at 0 the text is not to be seen.", "quantifier": "every line of styled text, every opacity, with and without a background", "why_tests_cant": "Lines of any length with any mix of styles and wide characters, and any rational opacity.", "anchors": ["/repo/crates/textual/src/strip.rs: Strip::apply_text_opacity", "/repo/crates/textual/src/widget/static_widget.rs: Static::render"]}
{"id": "C164", "title": "A hatch fills the blanks and leaves the rest alone", "statement": "Every blank column inside the border rows shows the hatch character in the hatch colour; every other column keeps its character and its colour, and no column moves. A tint changes colours only.", "quantifier": "every line, every hatch character, colour and opacity, every border", "why_tests_cant": "Lines of any length cut into any pieces.", "anchors": ["/repo/crates/textual/src/segment.rs: Segment::apply_hatch, apply_tint", "/repo/crates/textual/src/strip.rs: Strip::apply_hatch, apply_tint", "/repo/crates/textual/src/widget/static_widget.rs: Static::render"]}
{"id": "C165", "title": "A colour means the same in markup and in the stylesheet", "statement": "Every colour text that markup accepts is accepted by the stylesheet and is the same red, green and blue there, and every colour name of the stylesheet is that colour in markup.", "quantifier": "every text, names in any case, hexadecimal and rgb() colours", "why_tests_cant": "Any text; the two readers are written twice, with two tables of names.", "anchors": ["/repo/crates/rich/src/color.rs: Color::parse, to_rgb, is_known_color, named_to_rgb", "/repo/crates/tcss/src/types/color.rs: RgbaColor::parse, parse_named"]}
{"id": "C166", "title": "Text written in markup is drawn as the markup says", "statement": "The lines drawn are the text of the markup cut at its newlines; every character has the colours and attributes of the markup at its place, laid over the style of the content. Escaped text is drawn as it is.", "quantifier": "every markup text that parses, every base style", "why_tests_cant": "Any nesting of tags over texts of any length.", "anchors": ["/repo/crates/textual/src/content.rs: Content::from_markup, convert_rich_style, lines", "/repo/crates/rich/src/markup.rs", "/repo/crates/rich/src/style.rs"]}
{"id": "C167", "title": "Palette rows show the commands as they are", "statement": "The rows are commands of the providers whose titles match, each with its title as written (brackets and all), exactly the matching letters emphasised, and its help dimmed below; without a query exactly the discoverable commands are listed, sorted by title.", "quantifier": "every list of commands, every query, every title and help", "why_tests_cant": "Titles and queries of any length; markup in titles must not take effect.", "anchors": ["/repo/crates/textual/src/command.rs: SimpleProvider, SystemCommandsProvider", "/repo/crates/textual/src/fuzzy.rs: Matcher::highlight", "/repo/crates/textual/src/widget/command_palette.rs: start_search, build_prompt"]}
{"id": "C168", "title": "Typing a whole title puts that command first", "statement": "Whenever what was typed is the title of a command, in whatever case, the first row of the palette is such a command, however many others match and in whatever order the answers arrive.", "quantifier": "every list of commands, every query, every schedule of answers", "why_tests_cant": "The ranking compares scores of any two titles.", "anchors": ["/repo/crates/textual/src/fuzzy.rs: FuzzySearch::match_candidate, score", "/repo/crates/textual/src/widget/command_palette.rs: refresh_results"]}
{"id": "C169", "title": "Actions do what their names say", "statement": "An action handled by the application does nothing else; quit, bell and command_palette do the same with and without the prefix app.; every command the palette offers by default does something.", "quantifier": "every action string, every application handler", "why_tests_cant": "Any string may be an action; the offered commands and the handled names are written in different places.", "anchors": ["/repo/crates/textual/src/lib.rs: App::dispatch_action, App::command_palette_commands, App::get_system_commands"]}
{"id": "C170", "title": "What ui! accepts is all there is in the widgets", "statement": "If ui! or widget! compiles, no token of its text is ignored, and running it makes exactly the widgets described: in the order written, each with its positional arguments, its children in place of its braces, splats in place, and the named attributes applied in order, each expression evaluated once.", "quantifier": "every token text, every parser of expressions that takes tokens from the front, every program around the macro", "why_tests_cant": "Texts of any length and nesting; two shapes of generated code must mean the same.", "anchors": ["/repo/crates/textual-macros/src/parse.rs: UiRoot::parse, WidgetNode::parse, parse_child_item, parse_args", "/repo/crates/textual-macros/src/codegen.rs: generate, generate_widget, generate_children_vec, generate_attr_calls", "/repo/crates/textual-macros/src/lib.rs: ui, widget"]}
{"id": "C171", "title": "ui! accepts every description written in the usual way", "statement": "Every tree of widgets with arguments, attributes, children and splats can be written down, and the macro accepts it and makes those widgets.", "quantifier": "every tree of any depth and width", "why_tests_cant": "Trees of any size; expressions may swallow what follows them.", "anchors": ["/repo/crates/textual-macros/src/parse.rs: UiRoot::parse, WidgetNode::parse, parse_child_item, parse_args", "/repo/crates/textual-macros/src/codegen.rs: generate"]}
{"id": "C172", "title": "Scrollbars have the colours for what the mouse does with them", "statement": "A scrollbar whose thumb the user holds is drawn in its active colours, one under the pointer in its hover colours, any other in its normal colours; a colour the stylesheet does not give is the one of the weaker state.", "quantifier": "every stylesheet, content, region and history of mouse events", "why_tests_cant": "Histories of any length, with presses, releases and moves inside and outside the container.", "anchors": ["/repo/crates/tcss/src/types/scrollbar.rs: ScrollbarStyle", "/repo/crates/textual/src/containers/scrollable.rs: vertical_colors, horizontal_colors, on_mouse, clear_hover", "/repo/crates/textual/src/widget/screen.rs: vertical_colors, horizontal_colors, on_mouse", "/repo/crates/textual/src/containers/container.rs: vertical_colors, on_mouse"]}
{"id": "C173", "title": "A disabled widget does not answer the user", "statement": "While a widget is disabled nothing the user does with mouse or keyboard makes it send a message, ask for an action, or change its value.", "quantifier": "every state of every kind of control and every history of keys and mouse events", "why_tests_cant": "The widget may be disabled in any state, in the middle of a click, and the history is unbounded.", "anchors": ["/repo/crates/textual/src/widget/switch.rs: on_event, on_mouse", "/repo/crates/textual/src/widget/button.rs: on_event, on_mouse, press", "/repo/crates/textual/src/widget/input.rs: on_event, on_mouse", "/repo/crates/textual/src/widget/header.rs: HeaderIcon::on_mouse", "/repo/crates/textual/src/widget/static_widget.rs: on_mouse"]}
{"id": "C174", "title": "The mouse reaches the widget seen under the pointer, through any number of containers", "statement": "In a tree of containers nested in any way, a press, release, drag or move of the mouse is given to a widget only if the widget was drawn at the pointer and is not clipped away there by a container around it, with the region it was drawn in; and a widget that is seen there gets it, and no other does.", "quantifier": "every tree of scrolling containers, plain containers and screens, every scroll position, layout and mouse event", "why_tests_cant": "Trees of any depth, with any layout and scroll position at each level.", "anchors": ["/repo/crates/textual/src/containers/scrollable.rs: render, on_mouse", "/repo/crates/textual/src/containers/container.rs: render, on_mouse", "/repo/crates/textual/src/widget/screen.rs: render, on_mouse"]}
{"id": "C175", "title": "The shades of a theme colour differ in lightness only, in even steps", "statement": "For every colour given to a theme, $name-darken-3 ... $name ... $name-lighten-3 are the colours with the same hue part in CIE Lab whose lightness goes up by half of the theme's spread from one to the next, kept between black and white.", "quantifier": "every theme, spread and opaque or translucent colour", "why_tests_cant": "Sixteen million colours and any spread.", "anchors": ["/repo/crates/tcss/src/types/theme.rs: generate", "/repo/crates/tcss/src/types/color.rs: lighten, darken, to_lab, from_lab"]}
{"id": "C176", "title": "A switch shows its value", "statement": "After any history of clicks, keys and calls a switch that is not hidden shows, from the corner of its area, [ ON ] or [ OFF ] by the value last set or told, marked with > and < while it has the focus, or the spinner at its frame while it is loading; it never crashes and touches no cell outside its area.", "quantifier": "every history of events, spinner frame, canvas, clip and area", "why_tests_cant": "Histories of any length, any clip and position on the canvas.", "anchors": ["/repo/crates/textual/src/widget/switch.rs: render, tick_spinner, with_spinner_frame, desired_size"]}
{"id": "C177", "title": "Each cell of the screen is drawn by the widget a click there reaches", "statement": "In every tree of containers whose widgets draw inside their regions, the cell under the mouse is, on the canvas and after the flush on the terminal, the one that the widget reached by a click there has drawn, over what its containers drew before it; no other widget has any part in it.", "quantifier": "every tree of containers, drawing of the widgets, screen size and cell", "why_tests_cant": "Trees of any depth, any drawing calls by the widgets.", "anchors": ["/repo/crates/textual/src/lib.rs: render loop", "/repo/crates/textual/src/containers/scrollable.rs: render", "/repo/crates/textual/src/containers/container.rs: render", "/repo/crates/textual/src/widget/screen.rs: render", "/repo/crates/textual/src/canvas.rs: put_grapheme, push_clip, flush"]}
{"id": "C178", "title": "The text of a widget is on the canvas where its style puts it", "statement": "Drawing a text widget whose text fits puts each character of each line on the canvas cell that border, padding, content-align and text-align give, in its style, as far as the clip lets it, whatever hatch and tint the widget has, and changes no cell outside the widget.", "quantifier": "every text, style, border, title, region, clip and canvas", "why_tests_cant": "Any text and any combination of styles, regions partly off the canvas.", "anchors": ["/repo/crates/textual/src/widget/static_widget.rs: render, align_content", "/repo/crates/textual/src/canvas.rs: render_strip, put_str, put_grapheme", "/repo/crates/textual/src/render_cache.rs: render_line"]}
{"id": "C179", "title": "A scrolling container sized by its content needs no scrollbars", "statement": "A scrolling container laid out with the size it asks for shows no scrollbars, and has no room left over after its last child or beside the largest.", "quantifier": "every list of children, hidden or not, of any height, with any margins, borders and padding", "why_tests_cant": "Any number of children and overlapping margins of any size, with a layout that is computed again for each combination of bars.", "anchors": ["/repo/crates/textual/src/containers/scrollable.rs: calculate_intrinsic_size, desired_size, compute_scroll_layout, compute_virtual_size", "/repo/crates/textual/src/layouts/vertical.rs: arrange", "/repo/crates/textual/src/layouts/horizontal.rs: arrange"]}
{"id": "C180", "title": "Selectors see a widget as the widget describes itself", "statement": "For every widget of the library and every history of calls on it, the selectors of style sheets and queries find it exactly by what it says about itself: `#name` if `id()` is that name, `.class` if `has_class` says so, `:focus` if `is_focused()`, `:disabled` if `is_disabled()`, and always by its own type name; `:focus`, `:hover` and `:active` follow what was last set.", "quantifier": "for every kind of widget, every initial state and every history of settings, focus, hover, press and style changes, and every id, class and type name", "why_tests_cant": "There are 25 kinds of widgets, each with its own description for selectors beside its own answers; agreement after every history of calls, and the kinds for which it fails, cannot be enumerated by tests.", "anchors": ["/repo/crates/textual/src/widget.rs: get_meta, get_state, type_name, id, set_focus, set_hover, set_active, clear_hover", "/repo/crates/textual/src/widget/button.rs: get_meta, get_state", "/repo/crates/textual/src/widget/switch.rs: get_state", "/repo/crates/textual/src/widget/static_widget.rs: get_meta", "/repo/crates/textual/src/containers/container.rs: get_meta", "/repo/crates/textual/src/macros.rs: impl_widget_delegation", "/repo/crates/tcss/src/parser/cascade.rs: WidgetMeta, matches_selector"]}
{"id": "C181", "title": "A text anywhere in the tree is on the screen", "statement": "What a widget draws, at any depth of scrolling containers, plain containers and screens, is not covered by anything drawn later in the frame: every cell of it that no container clips away shows at the end of the frame what this widget drew there. In particular every character of a text that fits its widget is on the terminal after the flush, in the cell that borders, padding, `content-align` and `text-align` give it.", "quantifier": "for every tree of widgets, every state of scrolling, every size of the screen, every history of drawing before the frame, every text, style and place", "why_tests_cant": "What covers a widget depends on everything drawn after it: siblings, scrollbars and lines of all containers around it, at every depth and every scroll position. Tests render a few trees.", "anchors": ["/repo/crates/textual/src/containers/scrollable.rs: render", "/repo/crates/textual/src/containers/container.rs: render", "/repo/crates/textual/src/widget/screen.rs: render", "/repo/crates/textual/src/widget/static_widget.rs: render", "/repo/crates/textual/src/canvas.rs: push_clip, pop_clip, render_strips, flush", "/repo/crates/textual/src/lib.rs: render"]}
{"id": "C182", "title": "Lines of a plain container run between its children", "statement": "With `keyline` set on a row or a column of children, a line goes all around them, between any two of them there is a line across the whole container, and no line is drawn over a child; margins of one cell around each child give room enough. This also holds when the container is scrolled.", "quantifier": "for every list of children with any sizes and margins, every region, line style and scroll offset", "why_tests_cant": "The positions of the lines come from the layout of any number of children and are drawn over them; a line that strikes out a column of a child shows only for particular sizes, margins or scroll offsets.", "anchors": ["/repo/crates/textual/src/containers/container.rs: render, render_keylines", "/repo/crates/textual/src/keyline_canvas.rs: add_grid, render", "/repo/crates/textual/src/layouts/horizontal.rs: arrange", "/repo/crates/textual/src/layouts/vertical.rs: arrange"]}
{"id": "C183", "title": "A scrollbar on the screen is one block of thumb colour on its track", "statement": "With opaque colours, the cells a scrollbar leaves on the screen, whatever was there before, are all of its own region: seen in eighths of a cell, the thumb is one unbroken block of its colour at least one cell long inside the track, the rest is of the track's colour, at the first position the thumb touches the start and at the last one the end, and every row (column) across the bar looks the same. Making the colours of a bar opaque over a background works whatever they were.", "quantifier": "for every region, direction, size of content and window, position, pair of opaque colours and canvas drawn on", "why_tests_cant": "Sizes of thumb and track are cut into eighths of cells and drawn with glyphs whose foreground and background swap roles at the two ends; a gap or overhang shows only for some residues.", "anchors": ["/repo/crates/textual/src/scrollbar.rs: render_vertical, render_horizontal, compose_colors", "/repo/crates/textual/src/canvas.rs: put_char"]}
{"id": "C184", "title": "What containers draw themselves never covers their children", "statement": "Chrome (background, border, padding, titles) and scrollbars of every container are drawn inside that container; scrollbars and the corner between them are never drawn on the area the children are shown in, so what a widget at any depth draws at a place where it shows is still there at the end of the frame.", "quantifier": "for every tree of scrolling containers, plain containers and screens, every layout, scroll state, size of bars and chrome, colours and size of the screen", "why_tests_cant": "Bars are drawn after the children, from flags and regions computed separately from those the children are clipped to; whether they agree depends on the whole history of layout and scrolling.", "anchors": ["/repo/crates/textual/src/containers/scrollable.rs: render, vertical_scrollbar_region_with_flags, horizontal_scrollbar_region_with_flags, corner_region", "/repo/crates/textual/src/containers/container.rs: render", "/repo/crates/textual/src/widget/screen.rs: render", "/repo/crates/textual/src/containers.rs: render_container_chrome"]}
{"id": "C185", "title": "Bars of a plain container are beside its children", "statement": "The scrollbars of a plain container are inside it and never on the area its children are shown in.", "quantifier": "for every layout of the children, every scroll state and style, and every region", "why_tests_cant": "The container lays out its children again after it has decided on the vertical bar, and decides on the horizontal bar once more when it draws it; only particular widths make the second decision differ.", "anchors": ["/repo/crates/textual/src/containers/container.rs: render, content_region_for_scroll, vertical_scrollbar_region, horizontal_scrollbar_region, show_horizontal_scrollbar"]}
{"id": "C186", "title": "A widget can be had by its type", "statement": "query_one_as(selector) for a widget type gives the program the first widget, in document order, that the selector names and that has that type; what the program does to it is all that happens to the widgets, and if there is none nothing happens and the answer is None. A widget goes by the name of its type whatever its module and type parameters, and screen_mut always gives the screen of the application.", "quantifier": "for all trees of widgets, selectors, types, closures, module paths and type parameters", "why_tests_cant": "A test uses one tree with one widget of the type; which widget is found among many, and that the types the library offers can all be asked for, are statements about all trees and all types", "anchors": ["/repo/crates/textual/src/tree.rs: WidgetTree::query_one_as, find_and_apply_by_selector_typed, collect_pending_actions", "/repo/crates/textual/src/context.rs: query_one_as, screen_mut", "/repo/crates/textual/src/widget.rs: Widget::type_name, Widget::as_any_mut, impl Widget for Box<dyn Widget>"]}
{"id": "C187", "title": "Command providers are started, asked and shut down in order", "statement": "Each provider of the command palette is started before it is asked for commands, is not asked after it was shut down, gets one call at a time, and when the palette is closed and its tasks have ended every provider that was started has been shut down.", "quantifier": "for all sequences of opening, closing, typing and setting providers, and all schedules of the tasks the palette spawns, including when aborted tasks end", "why_tests_cant": "The calls are made by tasks on several threads; a test sees one schedule, usually the one in which the tasks run in the order they were spawned", "anchors": ["/repo/crates/textual/src/widget/command_palette.rs: open, close_with_selected, set_providers, start_search, cancel_search, startup_providers, shutdown_providers", "/repo/crates/textual/src/command.rs: Provider", "/repo/crates/textual/src/lib.rs: dispatch_action, run"]}
{"id": "C188", "title": "A size is the one that is written", "statement": "A child with a width or height in cells, in percent or parts of the width or height of its container, or in parts of the width or height of the screen, and no limits, gets that width or height to less than a cell; with box-sizing content-box its border and padding come on top. This is so in rows, columns, grids and for absolute children.", "quantifier": "for all children, sizes, units, containers, screens and siblings", "why_tests_cant": "The unit is looked at separately for widths and heights in every layout; a test uses one unit in one layout, often in a container as large as the screen, where wrong units give the same numbers", "anchors": ["/repo/crates/textual/src/layouts/size_resolver.rs: resolve_width_with_intrinsic, resolve_height_full", "/repo/crates/textual/src/layouts/vertical.rs: arrange, resolve_child_width", "/repo/crates/textual/src/layouts/horizontal.rs: arrange", "/repo/crates/textual/src/layouts/grid.rs: arrange", "/repo/crates/textual/src/layouts/mod.rs: resolve_absolute_placement", "/repo/crates/tcss/src/types/geometry.rs: Unit"]}
{"id": "C189", "title": "An opaque text widget hides what is behind it and shows its colours", "statement": "A text widget with an opaque background leaves the same in every cell of its region whatever was on the screen before it; if its border is drawn on its own background, every cell of it has this background. Its text is on the terminal in the colour, on the background and with the attributes its style asks for, at any depth of containers.", "quantifier": "for all styles, texts, markups, alignments, borders, titles, regions, clips, trees and earlier screens", "why_tests_cant": "Backgrounds are passed on through wrapping, padding, alignment, borders, titles and a cache of boxes; one blank without a style is seen only if something else was on the screen at that place before", "anchors": ["/repo/crates/textual/src/widget/static_widget.rs: rendering_style, align_content, render", "/repo/crates/textual/src/render_cache.rs: RenderCache, render_line", "/repo/crates/textual/src/strip.rs: adjust_cell_length, text_align", "/repo/crates/textual/src/content.rs: wrap_with_line_end_overflow", "/repo/crates/textual/src/canvas.rs: render_strip, flush"]}
{"id": "C190", "title": "A widget made of another one behaves like it", "statement": "A label, the parts of a header, a header, a vertical or horizontal scroll and the input and icon of the command palette answer every call, after every history of calls, as the static text, container, scrollable container or input would that they are made of, but for their own names and what their documentation says.", "quantifier": "for all inner widgets, states, histories of calls and arguments", "why_tests_cant": "A wrapper has to pass on more than fifty methods one by one and a forgotten one silently falls back to the default body of the trait; only a test that calls that method through the wrapper after a state change would notice", "anchors": ["/repo/crates/textual/src/widget.rs: Widget", "/repo/crates/textual/src/widget/label.rs: Label", "/repo/crates/textual/src/widget/header.rs: Header, HeaderTitle, HeaderClockSpace", "/repo/crates/textual/src/containers/vertical_scroll.rs: VerticalScroll", "/repo/crates/textual/src/containers/horizontal_scroll.rs: HorizontalScroll", "/repo/crates/textual/src/widget/command_palette.rs: CommandInput, SearchIcon"]}
{"id": "C191", "title": "A click on an option list picks the option drawn under the mouse", "statement": "Whatever happened to an option list before (items set, keys, clicks, wheel, restyling, drawing): when the mouse is pressed on a row of the screen where an option is drawn, this option becomes the selected and reported one if it can be chosen, and nothing changes otherwise. The selected option can be seen.", "quantifier": "for all items, histories of operations and drawings, regions, viewports, styles and rows clicked", "why_tests_cant": "The row is turned into an option by counting lines in the list while the rows drawn come from the layout of the container, its scroll position and the wrapping of each option; a test on one small list never makes them differ", "anchors": ["/repo/crates/textual/src/widget/option_list.rs: OptionList::on_mouse, OptionList::index_for_row, OptionList::refresh_display", "/repo/crates/textual/src/containers/container.rs: Container::set_children, Container::render, Container::on_mouse", "/repo/crates/textual/src/widget/static_widget.rs: Static::intrinsic_height_for_width", "/repo/crates/textual/src/widget/command_palette.rs: CommandList"]}
{"id": "C192", "title": "What is typed into an input is seen in its box, with the cursor", "statement": "Whatever was typed, set, or moved before: the box of an input shows its value (or its placeholder, if it is empty) character by character from the left, and while it has the focus the character at the cursor, or the blank behind the end, is drawn in the colours of the cursor.", "quantifier": "for all histories of keys and calls, texts, styles, widths and canvases", "why_tests_cant": "The value goes through escaping, markup parsing, wrapping, alignment and drawing; whether a particular mix of blanks, brackets and cursor positions survives all of them depends on the text, and the tests look at the markup string or at one value", "anchors": ["/repo/crates/textual/src/widget/input.rs: Input::build_display, Input::render", "/repo/crates/textual/src/widget/static_widget.rs: Static::render", "/repo/crates/textual/src/content.rs: Content::from_markup, Content::wrap_with_line_end_overflow, Content::wrap_line_with_spans"]}
{"id": "C193", "title": "A text drawn on a canvas is found in its text snapshot", "statement": "The text snapshot of a canvas has one line per row. A text that was drawn on the canvas stands in the line of its row, beginning at the character with the number of its column; get_char and row_str agree with it, and has_bg_at is true wherever text was drawn with a background.", "quantifier": "every canvas size, every history of drawing, clipping, clearing and flushing calls, every text, place, colour and attribute", "why_tests_cant": "Snapshot tests compare whole pictures that were approved by eye; whether the helper reports any drawing faithfully is a statement over all histories of calls and all texts, including wide and combined characters.", "anchors": ["/repo/crates/textual/src/canvas.rs: Canvas::to_snapshot, Canvas::row_str, Canvas::get_char, Canvas::has_bg_at"]}
{"id": "C194", "title": "A key press goes to the focused widget once and then to the program once", "statement": "Every key pressed that is not the shortcut of the command palette is given to the widget with the focus exactly once and then, unless the palette was open, to the program exactly once, in the order of the presses. A program with the default key handling ends by a key just if it is q or Escape pressed while the palette is closed. A text typed while an input has the focus is put at its cursor, and nothing else happens.", "quantifier": "every program, every history of key events with any modifiers and kinds, every text, every state of the input and the palette", "why_tests_cant": "Which of palette, focus, widget and program gets a key depends on the whole history; the unit tests of the loop's helpers never send key sequences through it.", "anchors": ["/repo/crates/textual/src/lib.rs: App::event_loop_async, App::on_key, App::request_quit, App::should_quit", "/repo/crates/textual/src/widget/input.rs: Input::on_event"]}
{"id": "C195", "title": "A picture taken by the test helper looks like the first frame of the program", "statement": "The picture that render_to_canvas takes of an application shows every widget with the styles it has in the first frame when the application is run in a terminal of that size.", "quantifier": "every application, tree of widgets and stylesheet", "why_tests_cant": "The helper is what all snapshot tests of the project use; whether its pictures stand for the running program is a statement about two different start-up paths for every stylesheet and tree, which no snapshot can show.", "anchors": ["/repo/crates/textual/src/testing.rs: render_to_canvas, build_combined_css", "/repo/crates/textual/src/lib.rs: App::event_loop_async, build_combined_css", "/repo/crates/textual/src/style_resolver.rs: resolve_styles", "/repo/crates/textual/src/widget/app_widget.rs: AppWidget", "/repo/crates/tcss/src/parser/cascade.rs: compute_style"]}
{"id": "C196", "title": "A click on a button seen on the screen is handled once, and nothing else is", "statement": "When the left mouse button is pressed and released where an enabled button is seen, whatever moves lie between, the program handles the message (or the action) of that button exactly once, at the release, and of no other button; a release anywhere else, or without a press before it, makes the program handle nothing.", "quantifier": "every tree of containers, every screen at each event, every history of mouse events", "why_tests_cant": "It joins drawing, scrolling, clipping, hit-testing through any depth of containers, the state kept by each button and the run loop, over all histories; a test clicks one button of one layout.", "anchors": ["/repo/crates/textual/src/lib.rs: App::event_loop_async", "/repo/crates/textual/src/tree.rs: collect_pending_actions_mut", "/repo/crates/textual/src/widget/button.rs: on_mouse, press, take_pending_action", "/repo/crates/textual/src/containers/scrollable.rs: on_mouse", "/repo/crates/textual/src/containers/container.rs: on_mouse", "/repo/crates/textual/src/widget/screen.rs: on_mouse"]}
{"id": "C197", "title": "The whole interface can be used with the keyboard", "statement": "Whatever keys are pressed, each goes to exactly one widget: the one as many places round the Tab order from the first as Tab was pressed more often than Shift+Tab; from any focus, some number of Tab presses and then Enter makes the program handle the message of any enabled button Tab can visit, once, and no other.", "quantifier": "every tree of widgets, every starting focus, every history of keys", "why_tests_cant": "It joins the focus ring, the cached focus path, the run loop and the state of the widgets over all trees and key histories; a test presses a few keys in one tree.", "anchors": ["/repo/crates/textual/src/lib.rs: App::event_loop_async", "/repo/crates/textual/src/tree.rs: focus_next, focus_previous, set_focus_index, update_focus, with_focused, dispatch_key", "/repo/crates/textual/src/widget/button.rs: on_event, press"]}
{"id": "C198", "title": "Each drawing call changes exactly the cells of its characters, and the last one wins", "statement": "Drawing text or rows on a canvas puts the glyph of each wholly visible character in its first cell, its colours and attributes in all its cells, and changes no other cell; a plain translucent blank only tints what is there. After any history of drawing, clipping and showing frames, a cell shows the last character drawn on it.", "quantifier": "every canvas, every clip, every text with characters of any width, every history of calls", "why_tests_cant": "Columns depend on the widths of all characters before, cut by canvas and clip on both sides; a test draws a few short texts on one canvas.", "anchors": ["/repo/crates/textual/src/canvas.rs: put_char, put_str, put_grapheme, render_strip, render_strips, resolve_background"]}
{"id": "C199", "title": "A link written in markup does what is written, where it is written", "statement": "For every text, link and action: markup with `[@click=ACTION]…[/]` or `[link=ADDRESS]…[/]` shows exactly the text without the tags, and exactly the text between the tags carries ACTION or ADDRESS as written; in a text widget, however the text is wrapped, aligned or framed, a click on a cell that shows a character of the link finds that action, and on any other character none.", "quantifier": "every text before, in and after the link, every action and address, every style and size of the widget", "why_tests_cant": "It joins the tag lexer, the tag parser, spans in bytes, wrapping and the regions kept for the mouse; tests try a few links in one line.", "anchors": ["/repo/crates/rich/src/parser/tag.rs: TagContent::parse, parse_meta, parse_link", "/repo/crates/rich/src/parser/lexer.rs: consume_tag", "/repo/crates/rich/src/parser/markup.rs: parse", "/repo/crates/textual/src/content.rs: from_markup, wrap_with_line_end_overflow", "/repo/crates/textual/src/widget/static_widget.rs: extract_link_regions, find_link_at"]}
{"id": "C200", "title": "A widget hidden by the stylesheet is not seen and cannot be used", "statement": "In every tree of widgets: a widget with `visibility: hidden` leaves nothing of its own on the screen, every cell where no hidden widget would be seen is as without hiding, a widget that is not hidden is seen even in a hidden container, and no click on the place of a hidden widget has an effect.", "quantifier": "every tree of containers and widgets, every set of hidden ones, every size of the screen, everything drawn before", "why_tests_cant": "Which cells a hidden widget would have changed depends on nesting, clipping, scrolling and what is drawn on top.", "anchors": ["/repo/crates/textual/src/widget/static_widget.rs: render", "/repo/crates/textual/src/containers/container.rs: render", "/repo/crates/textual/src/containers/scrollable.rs: render", "/repo/crates/textual/src/widget/screen.rs: render", "/repo/crates/textual/src/widget/button.rs: on_mouse", "/repo/crates/textual/src/widget/option_list.rs: render, on_mouse"]}
{"id": "C201", "title": "A link seen on the screen is followed by a press on it, and by nothing else", "statement": "In a tree of containers and texts an action written as a link is dispatched exactly when the left mouse button goes down on a cell of the screen that shows a character of this link, once, and for no other text; after a move of the mouse exactly the link under the pointer is highlighted.", "quantifier": "every tree of scrolling, plain and screen containers, every text and style, every history of mouse events with any change of the screen between them", "why_tests_cant": "the positions of links depend on wrapping, alignment, border, padding, scrolling and clipping at once; tests press on a few places of a few screens", "anchors": ["/repo/crates/textual/src/lib.rs: run loop (mouse)", "/repo/crates/textual/src/tree.rs: collect_pending_actions_mut, clear_all_hover", "/repo/crates/textual/src/widget/static_widget.rs: render, on_mouse, clear_hover, take_pending_action", "/repo/crates/textual/src/widget/label.rs: on_mouse"]}
{"id": "C202", "title": "A turn of the wheel scrolls the container under the pointer, and no other", "statement": "With containers in containers, turning the mouse wheel up or down over a container that scrolls and has more content in that direction moves the content of the innermost such container under the pointer, by a few rows but not beyond its content; no other container moves, and a turn of the wheel never moves two.", "quantifier": "every tree of scrolling, plain and screen containers with any layouts, positions and styles, every place of the pointer and every direction of the wheel", "why_tests_cant": "which container answers depends on the styles, positions and content sizes of all containers around the pointer; tests scroll single containers", "anchors": ["/repo/crates/textual/src/containers/scrollable.rs: on_mouse, on_mouse_with_sender", "/repo/crates/textual/src/containers/container.rs: on_mouse, on_mouse_with_sender, show_vertical_scrollbar", "/repo/crates/textual/src/widget/screen.rs: on_mouse, on_mouse_with_sender", "/repo/crates/textual/src/scroll.rs: scroll_up, scroll_down"]}
{"id": "C203", "title": "The widget with the focus can be seen", "statement": "However Tab, Shift+Tab and other keys are pressed, the widget that has the focus, and so gets the next key, is drawn in full on the screen; in particular Enter or Space never presses a button the user does not see.", "quantifier": "every tree of scrolling, plain and screen containers with any layouts, positions and styles, every terminal size and every sequence of keys", "why_tests_cant": "whether the focused widget is drawn depends on the layouts and positions of all containers around it at that moment; tests check the focus index without drawing", "anchors": ["/repo/crates/textual/src/lib.rs: run_event_loop (key branch)", "/repo/crates/textual/src/tree.rs: focus_next, focus_previous, set_focus_index", "/repo/crates/textual/src/containers/scrollable.rs: compute_scroll_layout, render", "/repo/crates/textual/src/containers/container.rs: render", "/repo/crates/textual/src/widget/screen.rs: render", "/repo/crates/textual/src/scroll.rs: set_viewport, set_virtual_size"]}
{"id": "C204", "title": "A form filled in with the keyboard holds what was typed into each field", "statement": "Each key pressed goes to the field that has the focus then, and to no other: after any keys every field holds the text and the cursor an ordinary editor has after the keys pressed while that field had the focus. Typing a text, Tab, the next text, Tab and so on leaves the texts in the fields in their order, round the screen.", "quantifier": "every tree of widgets, every contents of the fields, every sequence of keys with Tab and Shift+Tab anywhere in it", "why_tests_cant": "which keys a field gets depends on all moves of the focus before; tests type into one field", "anchors": ["/repo/crates/textual/src/lib.rs: run_event_loop (key branch)", "/repo/crates/textual/src/tree.rs: focus_next, focus_previous, dispatch_key, find_focus_path_recursive", "/repo/crates/textual/src/widget/input.rs: on_event"]}
{"id": "C205", "title": "The button under the pointer, and no other, is shown as hovered", "statement": "In any tree of containers, however deep, a button is shown as hovered just if it is the button seen under the pointer: after any history of mouse events the hovered button is the one whose visible part held the pointer at the last move, and there is at most one. Presses, releases, drags and turns of the wheel never change which button is hovered, and clearing the hover never changes which messages and actions the program is told of.", "quantifier": "for every tree of containers and buttons, each screen size and every history of mouse events", "why_tests_cant": "Hover is kept by each button and is set by one path (the container that hits it) and cleared by another (a walk over the whole tree); whether the two agree depends on the tree, the scroll positions and all earlier events.", "anchors": ["/repo/crates/textual/src/lib.rs: App::run", "/repo/crates/textual/src/tree.rs: clear_all_hover", "/repo/crates/textual/src/widget/button.rs: on_mouse, clear_hover", "/repo/crates/textual/src/containers/container.rs: on_mouse", "/repo/crates/textual/src/containers/scrollable.rs: on_mouse", "/repo/crates/textual/src/widget/screen.rs: on_mouse, set_hover"]}
{"id": "C206", "title": "A click on a switch seen on the screen turns it over, and nothing else does", "statement": "In any tree of containers, however deep, a click where a switch is seen turns over that switch and no other, and the program is told its new value once: a mouse button is pressed and then released where the switch is seen, with drags between. No other mouse event changes the value of a switch; a disabled or loading switch never changes. After n clicks on it a switch has its first value if n is even and the other one if n is odd, whatever else happened. A program that listens to the messages knows the value of every switch after every event.", "quantifier": "for every tree of containers and switches, each screen size and every history of mouse events on screens that may change between events", "why_tests_cant": "A press is remembered by the switch, ended by moves that clear the hover of the whole tree, and completed by an event that has to find the same switch again through containers that may have scrolled or changed since.", "anchors": ["/repo/crates/textual/src/lib.rs: App::run", "/repo/crates/textual/src/tree.rs: clear_all_hover", "/repo/crates/textual/src/widget/switch.rs: on_mouse, clear_hover", "/repo/crates/textual/src/containers/container.rs: on_mouse", "/repo/crates/textual/src/containers/scrollable.rs: on_mouse", "/repo/crates/textual/src/widget/screen.rs: on_mouse"]}
{"id": "C207", "title": "A press on a placeholder seen on the screen makes it show the next thing, and nothing else does", "statement": "In any tree of containers, however deep, a press of a mouse button where a placeholder is seen moves that placeholder on by one step, from its label to its size to the filler text and back to the label, and changes no other placeholder; no other mouse event changes any. So after n presses where it was seen a placeholder that showed its label at the beginning shows its label, its size or the filler text as n leaves 0, 1 or 2 when divided by three, whatever else happened.", "quantifier": "for every tree of containers and placeholders, each screen size and every history of mouse events on screens that may change between events", "why_tests_cant": "A step must happen exactly once for each press, so the event must not reach the placeholder twice or pass it by on any way through nested and scrolled containers; a test presses a few times in one layout.", "anchors": ["/repo/crates/textual/src/lib.rs: App::run", "/repo/crates/textual/src/widget/placeholder.rs: on_mouse, get_display_content, PlaceholderVariant::next", "/repo/crates/textual/src/containers/container.rs: on_mouse", "/repo/crates/textual/src/containers/scrollable.rs: on_mouse", "/repo/crates/textual/src/widget/screen.rs: on_mouse"]}
{"id": "C208", "title": "An option seen on the screen is picked by a click on it, wherever its list is", "statement": "In any tree of containers, however deep and scrolled, when the left mouse button goes up on a row where an option of an option list is drawn and seen, exactly this option is selected and told to the program, if it is not disabled, and nothing otherwise; no other list changes. No mouse event but the release of the left button over a list picks or selects an option.", "quantifier": "for every tree of containers and option lists, each screen size and every history of mouse events, drawings, keys and changes by the program", "why_tests_cant": "The row of the screen becomes a row of the list through the regions told by each container, and then an option through line counts kept by the list, while the drawing goes through the layout; a test clicks a few rows of one list.", "anchors": ["/repo/crates/textual/src/lib.rs: App::run", "/repo/crates/textual/src/widget/option_list.rs: on_mouse, index_for_row", "/repo/crates/textual/src/containers/container.rs: on_mouse", "/repo/crates/textual/src/containers/scrollable.rs: on_mouse", "/repo/crates/textual/src/widget/screen.rs: on_mouse"]}
{"id": "C209", "title": "Widgets in a tree do not disturb each other", "statement": "Whatever widgets an application puts into its containers, each of them goes through a history of mouse events as it would on its own, given just the events for which it is the widget seen at the pointer, together with the region it is drawn in. What its neighbours are, what state they are in and what they answer does not change its state or its messages, and the application handles just the messages the widgets would send on their own.", "quantifier": "for all widget behaviours, all trees of containers of any depth, all histories of mouse events and of screens, all states of the other widgets", "why_tests_cant": "A test has particular widgets in a particular tree and a few events; that no neighbour can ever matter is a statement about all widgets and histories.", "anchors": ["/repo/crates/textual/src/lib.rs: App::run", "/repo/crates/textual/src/tree.rs: clear_all_hover", "/repo/crates/textual/src/widget.rs: Widget::on_mouse, on_mouse_with_sender, clear_hover", "/repo/crates/textual/src/containers/container.rs: on_mouse_with_sender", "/repo/crates/textual/src/widget/screen.rs: on_mouse_with_sender"]}
{"id": "C210", "title": "Keyboard and mouse do not get in each other's way", "statement": "In a program used with keyboard and mouse in any order, each widget's state and the messages handled from it are those the widget would have on its own, given the mouse events for which it is the one seen at the pointer and the keys pressed while it has the focus. Where the focus is depends on the presses of Tab and Shift+Tab alone.", "quantifier": "for all widget behaviours, all trees, all interleavings of keys and mouse events of any length", "why_tests_cant": "Tests send either keys or a few mouse events to one widget; the claim is about all interleavings for a whole tree, where a key between press and release, or a click between two keys, may come at any point.", "anchors": ["/repo/crates/textual/src/lib.rs: App::run", "/repo/crates/textual/src/tree.rs: dispatch_key, focus_next, focus_previous, clear_all_hover", "/repo/crates/textual/src/widget.rs: Widget::on_event, on_mouse, on_mouse_with_sender", "/repo/crates/textual/src/containers/container.rs: on_mouse", "/repo/crates/textual/src/widget/screen.rs: on_mouse"]}
