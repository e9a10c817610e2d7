{
 "claims": [
  {
   "property": "C01",
   "status": "partial",
   "theorems": [
    "Textual.ScrollState.step_inBounds",
    "Textual.ScrollState.run_inBounds_partial",
    "Textual.ScrollState.new_run_inBounds_partial",
    "Textual.ScrollState.window_within_content_partial",
    "Textual.ScrollState.scrollUp_negative_counterexample",
    "Textual.ScrollState.scrollDown_negative_counterexample",
    "Textual.ScrollState.scrollTo_inBounds",
    "Textual.ScrollState.setViewport_inBounds",
    "Textual.ScrollState.setVirtualSize_inBounds",
    "Textual.ScrollState.scrollDown_exact",
    "Textual.ScrollState.scrollUp_exact",
    "Textual.ScrollState.scrollRight_exact",
    "Textual.ScrollState.scrollLeft_exact",
    "Textual.ScrollState.scrollDown_scrollUp",
    "Textual.ScrollState.scrollPercentY_range",
    "Textual.ScrollState.scrollPercentX_range"
   ],
   "note": "False for negative scroll amounts (counterexamples); proved for every history with non-negative amounts."
  },
  {
   "property": "C02",
   "status": "proved",
   "theorems": [
    "Textual.Fraction.new_zero_den",
    "Textual.Fraction.new_canonical",
    "Textual.Fraction.new_toRat",
    "Textual.Fraction.eq_iff_toRat",
    "Textual.Fraction.ofInt_toRat",
    "Textual.Fraction.add_toRat",
    "Textual.Fraction.sub_toRat",
    "Textual.Fraction.mul_toRat",
    "Textual.Fraction.mulRatio_toRat",
    "Textual.Fraction.floor_toRat",
    "Textual.Fraction.fract_spec",
    "Textual.Fraction.Expr.eval_canonical",
    "Textual.Fraction.Expr.eval_exact"
   ],
   "note": "i64 overflow not modelled."
  },
  {
   "property": "C03",
   "status": "proved",
   "theorems": [
    "Textual.Region.mem_intersection",
    "Textual.Region.intersection_comm",
    "Textual.Region.mem_intersection_assoc",
    "Textual.Region.mem_intersection_self",
    "Textual.Region.isEmpty_intersection",
    "Textual.Region.intersection_size_nonneg",
    "Textual.Region.isEmpty_exact",
    "Textual.Region.new_size"
   ],
   "note": "Saturating i32 arithmetic modelled exactly."
  },
  {
   "property": "C04",
   "status": "proved",
   "theorems": [
    "Textual.Canvas.draw_inside_every_clip",
    "Textual.Canvas.draw_frame"
   ],
   "note": ""
  },
  {
   "property": "C05",
   "status": "partial",
   "theorems": [
    "Textual.Canvas.run_never_panics_partial",
    "Textual.Canvas.new_isSome_iff_partial",
    "Textual.Canvas.new_overflow_counterexample",
    "Textual.Canvas.newRelease_draw_counterexample"
   ],
   "note": "False for canvases of 65536 cells or more: the product is computed in u16 (counterexamples). Proved for smaller ones."
  },
  {
   "property": "C06",
   "status": "partial",
   "theorems": [
    "Textual.Canvas.flushFull_shows_partial",
    "Textual.Canvas.flushDiff_shows_partial",
    "Textual.Canvas.session_flush_shows_partial",
    "Textual.Canvas.invalidate_flush_repairs_partial",
    "Textual.Canvas.narrow_session_flush_shows",
    "Textual.Canvas.draw_whole",
    "Textual.Canvas.whole_session_flush_shows",
    "Textual.Canvas.flush_halfGlyph_counterexample",
    "Textual.Canvas.flush_patched_counterexample",
    "Textual.Canvas.flush_tint_counterexample"
   ],
   "note": "False when a frame holds half of a wide glyph, when a wide glyph without background is drawn over two backgrounds and when one column of a wide glyph is tinted (counterexamples). Proved for frames whose wide glyphs are whole; proved for every drawing session whose calls cut no glyph in two (whole_session_flush_shows), and for one-column text without any condition."
  },
  {
   "property": "C07",
   "status": "proved",
   "theorems": [
    "Textual.Canvas.balanced_restores_clip"
   ],
   "note": ""
  },
  {
   "property": "C08",
   "status": "partial",
   "theorems": [
    "Textual.Strip.crop_wf",
    "Textual.Strip.crop_cells_partial",
    "Textual.Strip.crop_cells_narrow",
    "Textual.Strip.crop_length_partial",
    "Textual.Strip.crop_wide_counterexample"
   ],
   "note": "False for a cut through a wide grapheme (counterexample); proved for all other cuts, and for one-column text without condition."
  },
  {
   "property": "C09",
   "status": "partial",
   "theorems": [
    "Textual.Strip.join_cells",
    "Textual.Strip.divide_join_partial",
    "Textual.Strip.divide_nth_partial",
    "Textual.Strip.divide_wide_counterexample"
   ],
   "note": "Same exception as C08: cuts through a wide grapheme duplicate columns."
  },
  {
   "property": "C10",
   "status": "partial",
   "theorems": [
    "Textual.Strip.adjustCellLength_spec_partial",
    "Textual.Strip.adjustCellLength_wide_counterexample"
   ],
   "note": "Same exception as C08."
  },
  {
   "property": "C11",
   "status": "partial",
   "theorems": [
    "Textual.Strip.textAlign_spec_partial"
   ],
   "note": "Same exception as C08 when the line is longer than the width; the padding case has no exception."
  },
  {
   "property": "C12",
   "status": "proved",
   "theorems": [
    "Textual.Strip.justify_spec",
    "Textual.Strip.justify_word",
    "Textual.Strip.justify_long_partial"
   ],
   "note": "Lines shorter than the width: no exception. Longer lines are cropped as in C08."
  },
  {
   "property": "C13",
   "status": "proved",
   "theorems": [
    "Textual.Strip.simplify_shown",
    "Textual.Strip.simplify_merged",
    "Textual.Strip.simplify_drops_metadata"
   ],
   "note": "Metadata is not part of the claim: it is dropped (shown)."
  },
  {
   "property": "C14",
   "status": "proved",
   "theorems": [
    "Textual.Style.apply_assoc",
    "Textual.Style.apply_empty",
    "Textual.Style.isEmpty_iff",
    "Textual.Style.apply_idem",
    "Textual.Style.apply_spec",
    "Textual.Strip.applyStyle_cells",
    "Textual.Strip.applyStyle_twice"
   ],
   "note": ""
  },
  {
   "property": "C36",
   "status": "proved",
   "theorems": [
    "Textual.RgbaColor.parseHex_roundtrip6",
    "Textual.RgbaColor.parseHex_roundtrip8",
    "Textual.RgbaColor.parseHex_short3",
    "Textual.RgbaColor.parseHex_short4",
    "Textual.RgbaColor.parseHex_case",
    "Textual.RgbaColor.parseHex_accepts"
   ],
   "note": ""
  },
  {
   "property": "C37",
   "status": "proved",
   "theorems": [
    "Textual.RgbaColor.lerpU8_between",
    "Textual.RgbaColor.lerpU8_exact",
    "Textual.RgbaColor.lerpU8_zero",
    "Textual.RgbaColor.lerpU8_one",
    "Textual.RgbaColor.lerpU8_mono",
    "Textual.RgbaColor.tint_between",
    "Textual.RgbaColor.tint_ends",
    "Textual.RgbaColor.tint_valid",
    "Textual.RgbaColor.blendOver_between",
    "Textual.RgbaColor.blend_between",
    "Textual.RgbaColor.blend_ends",
    "Textual.RgbaColor.blend_mono",
    "Textual.RgbaColor.blendToward_between",
    "Textual.RgbaColor.blendToward_ends"
   ],
   "note": "Over exact rationals; float rounding is not modelled."
  },
  {
   "property": "C38",
   "status": "partial",
   "theorems": [
    "Textual.RgbaColor.parse_panic_iff_partial",
    "Textual.RgbaColor.parse_panic_counterexample"
   ],
   "note": "False: `rgb)(` panics. The exact set of panicking strings is proved."
  },
  {
   "property": "C39",
   "status": "proved",
   "theorems": [
    "Textual.Canvas.putStr_draws",
    "Textual.Canvas.putStr_background",
    "Textual.Canvas.resolveBackground_spec",
    "Textual.Canvas.resolveBackground_mix"
   ],
   "note": ""
  },
  {
   "property": "C29",
   "status": "proved",
   "theorems": [
    "Textual.Css.matchesComplex_sound",
    "Textual.Css.matchesComplex_single",
    "Textual.Css.matchesSelector_iff"
   ],
   "note": ""
  },
  {
   "property": "C30",
   "status": "partial",
   "theorems": [
    "Textual.Css.matchesComplex_complete_partial",
    "Textual.Css.matchesComplex_complete_counterexample"
   ],
   "note": "False in general: matching is greedy without backtracking (counterexample `A > B C`). Proved when all descendant combinators come before all child combinators."
  },
  {
   "property": "C31",
   "status": "partial",
   "theorems": [
    "Textual.Css.cascade_winner_partial",
    "Textual.Css.cascade_default_partial",
    "Textual.Css.cascade_bold_iff",
    "Textual.Css.cascade_textStyle_counterexample",
    "Textual.Css.resolveColor_spec"
   ],
   "note": "False for text-style locations, which accumulate (counterexample, and the exact behaviour for bold). Proved for every other location. The precedence of a selector list is the subject of C32."
  },
  {
   "property": "C32",
   "status": "partial",
   "theorems": [
    "Textual.Css.strength_strongest_partial",
    "Textual.Css.strength_isSome",
    "Textual.Css.strength_order_counterexample"
   ],
   "note": "False: the first matching selector of the list decides (counterexample). Proved for lists written from strong to weak, in particular single selectors."
  },
  {
   "property": "C33",
   "status": "partial",
   "theorems": [
    "Textual.Css.combineOne_meaning_partial",
    "Textual.Css.combineOne_wf",
    "Textual.Css.flatten_meaning_partial",
    "Textual.Css.flatten_perm",
    "Textual.Css.flatten_own_first",
    "Textual.Css.combineOne_specificity",
    "Textual.Css.nested_amp_counterexample"
   ],
   "note": "False when `&` stands after the first compound of a nested selector (counterexample); otherwise proved."
  },
  {
   "property": "C18",
   "status": "partial",
   "theorems": [
    "Textual.Scrollbar.thumbBounds_partial",
    "Textual.Scrollbar.thumbBounds_equal_counterexample",
    "Textual.Scrollbar.thumbBounds_mono",
    "Textual.Scrollbar.thumbEighths_bounds",
    "Textual.Scrollbar.renderVertical_exact",
    "Textual.Scrollbar.renderHorizontal_exact",
    "Textual.Scrollbar.render_noThumb",
    "Textual.Scrollbar.render_transparent"
   ],
   "note": "False when the content is exactly as long as the track: no thumb (counterexample). Otherwise proved, over exact rationals, for the hit area and for the painted eighths."
  },
  {
   "property": "C19",
   "status": "proved",
   "theorems": [
    "Textual.Keyline.combineQuads_arms",
    "Textual.Keyline.combineQuads_comm",
    "Textual.Keyline.combineQuads_assoc",
    "Textual.Keyline.combineQuads_self",
    "Textual.Keyline.setAll_arm",
    "Textual.Keyline.setAll_perm",
    "Textual.Keyline.setAll_twice"
   ],
   "note": ""
  },
  {
   "property": "C40",
   "status": "partial",
   "theorems": [
    "Textual.Keyline.keylines_exact_partial",
    "Textual.Keyline.allLines_iff",
    "Textual.Keyline.keylines_connected_partial",
    "Textual.Keyline.keylines_narrow_counterexample"
   ],
   "note": "False for boxes one cell wide or high, whose corners have dangling arms (counterexample). Proved for all others and for tables with increasing positions."
  },
  {
   "property": "C41",
   "status": "partial",
   "theorems": [
    "Textual.Keyline.drawn_glyph_partial",
    "Textual.Keyline.boxChar_arms_partial",
    "Textual.Keyline.boxChar_arms_counterexample"
   ],
   "note": "Six table entries are swapped (counterexample); none of them can occur on a canvas of proper boxes and tables."
  },
  {
   "property": "C34",
   "status": "proved",
   "theorems": [
    "Textual.Source.stripComments_pieces",
    "Textual.Source.pieces_exist",
    "Textual.Source.stripComments_id",
    "Textual.Source.stripComments_noOpener",
    "Textual.Source.stripComments_idem",
    "Textual.Source.string_comment_stripped"
   ],
   "note": "Strings are not recognised: `//` in a quoted string counts as a comment (shown)."
  },
  {
   "property": "C35",
   "status": "partial",
   "theorems": [
    "Textual.Source.resolveLine_parts",
    "Textual.Source.parts_exist",
    "Textual.Source.resolveLine_id",
    "Textual.Source.resolveVariables_lines",
    "Textual.Source.preprocess_lines_partial",
    "Textual.Source.definition_line",
    "Textual.Source.extractDefs_lines",
    "Textual.Source.lookupDefs_last",
    "Textual.Source.lookupDefs_none",
    "Textual.Source.reference_line_lost_counterexample",
    "Textual.Source.nested_value_counterexample"
   ],
   "note": "Within a line proved for all lines. Whole texts: lines starting with a reference are dropped and values naming other variables are inserted unresolved (counterexamples); the line-wise meaning is proved."
  },
  {
   "property": "C20",
   "status": "proved",
   "theorems": [
    "Textual.Layout.Horizontal.arrange_fills",
    "Textual.Layout.Horizontal.arrange_share",
    "Textual.Layout.Horizontal.arrange_noSpace"
   ],
   "note": "For children without min/max width (a constraint changes the width after the distribution)."
  },
  {
   "property": "C21",
   "status": "proved",
   "theorems": [
    "Textual.Layout.Horizontal.arrange_index",
    "Textual.Layout.Horizontal.arrange_disjoint",
    "Textual.Layout.Horizontal.arrange_first"
   ],
   "note": "Disjointness for non-negative left margins."
  },
  {
   "property": "C22",
   "status": "proved",
   "theorems": [
    "Textual.Layout.Horizontal.arrange_gap",
    "Textual.Layout.Vertical.arrange_gap",
    "Textual.Layout.Horizontal.arrange_first",
    "Textual.Layout.Vertical.arrange_first"
   ],
   "note": "Vertical gap in whole cells."
  },
  {
   "property": "C23",
   "status": "proved",
   "theorems": [
    "Textual.Layout.Vertical.arrange_index",
    "Textual.Layout.Vertical.arrange_height_nonneg",
    "Textual.Layout.Vertical.arrange_next_le",
    "Textual.Layout.Vertical.arrange_disjoint"
   ],
   "note": ""
  },
  {
   "property": "C42",
   "status": "proved",
   "theorems": [
    "Textual.Layout.Horizontal.arrange_noDrift"
   ],
   "note": ""
  },
  {
   "property": "C43",
   "status": "partial",
   "theorems": [
    "Textual.Layout.Horizontal.arrange_minWidth",
    "Textual.Layout.Horizontal.arrange_maxWidth",
    "Textual.Layout.Vertical.arrange_minWidth",
    "Textual.Layout.Vertical.arrange_maxWidth",
    "Textual.Layout.Vertical.arrange_minHeight_partial",
    "Textual.Layout.Vertical.arrange_maxHeight",
    "Textual.Layout.Horizontal.minHeight_margin_counterexample",
    "Textual.Layout.Vertical.minHeight_margin_counterexample",
    "Textual.Layout.Units.grid_limit_counterexample"
   ],
   "note": "Widths proved in rows and columns; a grid does not look at limits (counterexample). Minimum heights are false for children with margins, which are subtracted afterwards (counterexamples)."
  },
  {
   "property": "C44",
   "status": "partial",
   "theorems": [
    "Textual.Layout.Vertical.arrange_fills_partial",
    "Textual.Layout.Vertical.fills_margin_counterexample",
    "Textual.Layout.Vertical.fills_viewport_counterexample"
   ],
   "note": "False when a stretched child has margins (subtracted twice) or the container is not as high as the viewport (counterexamples); proved otherwise."
  },
  {
   "property": "C24",
   "status": "proved",
   "theorems": [
    "Textual.Layout.Grid.placed_inside",
    "Textual.Layout.Grid.placed_disjoint",
    "Textual.Layout.Grid.placed_order",
    "Textual.Layout.Grid.placed_first_fit"
   ],
   "note": ""
  },
  {
   "property": "C25",
   "status": "partial",
   "theorems": [
    "Textual.Layout.Grid.resolveTracks_chain",
    "Textual.Layout.Grid.distribute_prefix_partial",
    "Textual.Layout.Grid.distribute_fills_partial",
    "Textual.Layout.Grid.distribute_share_partial",
    "Textual.Layout.Grid.distribute_auto_prefix_partial",
    "Textual.Layout.Grid.distribute_auto_fills_partial",
    "Textual.Layout.Grid.content_columns_partial",
    "Textual.Layout.Grid.fills_auto_counterexample",
    "Textual.Layout.Grid.fills_narrow_counterexample",
    "Textual.Layout.Grid.fills_decimals_counterexample"
   ],
   "note": "Tracks never overlap and are never empty. They fill the grid exactly when fr and auto are not mixed, weights have at most three decimals and each track has room for one cell; counterexamples for each exception. Content-sized columns: proved when the content fits."
  },
  {
   "property": "C45",
   "status": "partial",
   "theorems": [
    "Textual.Layout.Grid.placed_unit_partial",
    "Textual.Layout.Grid.rowCount_enough",
    "Textual.Layout.Grid.arrange_shows_all_partial",
    "Textual.Layout.Grid.dropped_has_no_place",
    "Textual.Layout.Grid.shows_all_spans_counterexample"
   ],
   "note": "False with spans: the row count ignores them (counterexample). Proved for children of one cell; with spans a child is dropped only when nothing is free for it after the others."
  },
  {
   "property": "C46",
   "status": "partial",
   "theorems": [
    "Textual.Layout.Grid.arrange_disjoint_partial",
    "Textual.Layout.Grid.arrange_columns_disjoint",
    "Textual.Layout.Grid.childRegion_disjoint",
    "Textual.Layout.Grid.overlap_height_counterexample"
   ],
   "note": "False for children with their own height, which is not limited to the row (counterexample). Proved for children that take the height of their cell, and between columns for all."
  },
  {
   "property": "C47",
   "status": "proved",
   "theorems": [
    "Textual.Layout.Grid.cellOccupancy_iff",
    "Textual.Layout.Grid.linePositions_spec"
   ],
   "note": "Line positions: for tracks that fill the region."
  },
  {
   "property": "C26",
   "status": "proved",
   "theorems": [
    "Textual.Layout.docked_hugs_edge",
    "Textual.Layout.arrange_docked_hugs",
    "Textual.Layout.content_region_exact",
    "Textual.Layout.content_avoids_docked"
   ],
   "note": "A docked child with an offset is moved from there (C51)."
  },
  {
   "property": "C27",
   "status": "proved",
   "theorems": [
    "Textual.Layout.alignment_rigid",
    "Textual.Layout.bounds_spec",
    "Textual.Layout.alignment_horizontal",
    "Textual.Layout.alignment_vertical"
   ],
   "note": ""
  },
  {
   "property": "C28",
   "status": "partial",
   "theorems": [
    "Textual.Layout.layers_partition_partial",
    "Textual.Layout.layer_content",
    "Textual.Layout.layers_paint_order",
    "Textual.Layout.layers_declared_over",
    "Textual.Layout.layers_duplicate_counterexample"
   ],
   "note": "False if a layer name is declared twice: its children are drawn twice (counterexample). Proved for distinct names. Within a layer docked children come first and absolute ones last."
  },
  {
   "property": "C48",
   "status": "partial",
   "theorems": [
    "Textual.Layout.arrange_every_child",
    "Textual.Layout.arrange_every_child_grid_partial"
   ],
   "note": "Rows and columns: proved. Grids: for children of one cell (false with spans, see C45)."
  },
  {
   "property": "C49",
   "status": "partial",
   "theorems": [
    "Textual.Layout.layers_deterministic_partial",
    "Textual.Layout.layers_hash_order_counterexample"
   ],
   "note": "False with two undeclared layers, painted in HashMap order (counterexample). Proved otherwise."
  },
  {
   "property": "C50",
   "status": "partial",
   "theorems": [
    "Textual.Layout.absolute_no_effect",
    "Textual.Layout.absolute_pre_layout_counterexample"
   ],
   "note": "Proved for the ordinary path; false for containers with a pre-layout hook, where absolute children stay in the flow (counterexample)."
  },
  {
   "property": "C51",
   "status": "proved",
   "theorems": [
    "Textual.Layout.offset_own_only",
    "Textual.Layout.offset_sibling",
    "Textual.Layout.offset_amount"
   ],
   "note": ""
  },
  {
   "property": "C15",
   "status": "partial",
   "theorems": [
    "Textual.Fuzzy.match_sound",
    "Textual.Fuzzy.match_sound_chars",
    "Textual.Fuzzy.match_offsets_counterexample"
   ],
   "note": "Proved in terms of the lower-cased texts, and in terms of the candidate itself when lower-casing keeps the number of characters; false for characters such as İ whose lower case is longer (counterexample)."
  },
  {
   "property": "C16",
   "status": "partial",
   "theorems": [
    "Textual.Fuzzy.match_complete_partial",
    "Textual.Fuzzy.score_formula",
    "Textual.Fuzzy.score_fewer_jumps",
    "Textual.Fuzzy.match_complete_counterexample"
   ],
   "note": "False: the scan for the i-th letter stops i characters before the end, so `ab` does not match `a.b` (counterexample). Proved, with optimality of the score, for embeddings inside that window."
  },
  {
   "property": "C17",
   "status": "proved",
   "theorems": [
    "Textual.Fuzzy.highlight_roundtrip"
   ],
   "note": "Match style: any plain tag text naming a style."
  },
  {
   "property": "C52",
   "status": "proved",
   "theorems": [
    "Textual.Markup.escape_roundtrip",
    "Textual.Markup.parse_shows",
    "Textual.Markup.shows_unique"
   ],
   "note": ""
  },
  {
   "property": "C53",
   "status": "proved",
   "theorems": [
    "Textual.Markup.spans_wellformed"
   ],
   "note": ""
  },
  {
   "property": "C54",
   "status": "proved",
   "theorems": [
    "Textual.Markup.segments_cover",
    "Textual.Markup.segments_cover_aligned",
    "Textual.Markup.segments_unaligned_counterexample"
   ],
   "note": ""
  },
  {
   "property": "C55",
   "status": "partial",
   "theorems": [
    "Textual.Markup.styleAt_exact",
    "Textual.Markup.innermost_wins_partial",
    "Textual.Markup.innermost_wins_counterexample"
   ],
   "note": "False for colours: spans are applied in closing order, so the outermost tag wins (counterexample; exact behaviour proved in styleAt_exact). Modifiers, and colours set by one tag only, are as expected."
  },
  {
   "property": "C56",
   "status": "partial",
   "theorems": [
    "Textual.Markup.parse_no_panic_partial",
    "Textual.Markup.parse_panic_counterexample"
   ],
   "note": "False: a hex colour of six bytes with fewer characters panics (counterexample). Proved for ASCII input."
  },
  {
   "property": "C57",
   "status": "partial",
   "theorems": [
    "Textual.Markup.tag_scope",
    "Textual.Markup.tagMatches_iff",
    "Textual.Markup.closeNamed_closes",
    "Textual.Markup.close_unknown_counterexample",
    "Textual.Markup.close_prefix_counterexample"
   ],
   "note": "A name that no open tag carries closes every open tag, and a name matches inside longer words (counterexamples). What a named closing tag closes, other tags in between included, is stated by closeNamed_closes, which C55's reading of the tokens uses."
  },
  {
   "property": "C58",
   "status": "proved",
   "theorems": [
    "Textual.Css.plain_longhand",
    "Textual.Css.color_longhand",
    "Textual.Css.edge_longhand",
    "Textual.Css.shorthand_expands",
    "Textual.Css.grid_gutter"
   ],
   "note": "For the declarations of the model; text-style and the auto colour flags are covered by C31."
  },
  {
   "property": "C59",
   "status": "partial",
   "theorems": [
    "Textual.Content.wrap_plain_fits",
    "Textual.Content.wrap_spans_fits_partial",
    "Textual.Content.wrap_spans_long_word_counterexample",
    "Textual.Content.wrap_spans_blanks_counterexample",
    "Textual.Content.wrap_wide_counterexample"
   ],
   "note": "Proved for plain text. False for text with markup: long words are not broken and runs of blanks count as one (counterexamples); proved there when words fit and stand one blank apart. A character wider than the width cannot fit."
  },
  {
   "property": "C60",
   "status": "partial",
   "theorems": [
    "Textual.Content.wrap_keeps_text",
    "Textual.Content.wrap_zero_width_counterexample"
   ],
   "note": "Proved, styles included, when every word has at least one column; a word without width is lost (counterexample)."
  },
  {
   "property": "C61",
   "status": "partial",
   "theorems": [
    "Textual.Content.wrap_paragraphs_partial",
    "Textual.Content.noWrap_paragraphs",
    "Textual.Content.wrap_blank_counterexample"
   ],
   "note": "Proved without wrapping. With wrapping a line of white space vanishes (counterexample); proved when there is none."
  },
  {
   "property": "C62",
   "status": "proved",
   "theorems": [
    "Textual.Content.lines_styled"
   ],
   "note": "Spans that begin and end between characters."
  },
  {
   "property": "C63",
   "status": "partial",
   "theorems": [
    "Textual.Content.truncate_spec_partial",
    "Textual.Content.truncate_style",
    "Textual.Content.truncate_wide_counterexample"
   ],
   "note": "Unless the cut falls into a wide character (counterexample)."
  },
  {
   "property": "C64",
   "status": "proved",
   "theorems": [
    "Textual.Content.height_eq",
    "Textual.Content.splitLines_join",
    "Textual.Content.lines_styled"
   ],
   "note": ""
  },
  {
   "property": "C65",
   "status": "proved",
   "theorems": [
    "Textual.Content.wrap_words_intact"
   ],
   "note": "For plain text of one source line, as stated."
  },
  {
   "property": "C66",
   "status": "partial",
   "theorems": [
    "Textual.Content.fold_spec_partial",
    "Textual.Content.noWrap_fold_partial",
    "Textual.Content.fold_wide_counterexample"
   ],
   "note": "Proved for narrow characters; a wide character across the fold makes a piece too wide (counterexample)."
  },
  {
   "property": "C67",
   "status": "partial",
   "theorems": [
    "Textual.Content.link_attributes",
    "Textual.Content.link_background",
    "Textual.Content.link_foreground",
    "Textual.Content.link_hover_underline_counterexample"
   ],
   "note": "False for underline: hovering can remove the underline of the text (counterexample). `auto` colours are the contrast colours of C34."
  },
  {
   "property": "C68",
   "status": "partial",
   "theorems": [
    "Textual.Tree.set_exact",
    "Textual.Tree.set_out_of_range",
    "Textual.Tree.focus_history",
    "Textual.Tree.two_focused_counterexample"
   ],
   "note": "Proved for every history of focus operations. False if widgets are hidden in between: a hidden widget keeps its focus flag (counterexample; set_exact says exactly which flags survive)."
  },
  {
   "property": "C69",
   "status": "proved",
   "theorems": [
    "Textual.Tree.tab_cycle",
    "Textual.Tree.tab_back"
   ],
   "note": "For widgets of the library as they are built (Ok)."
  },
  {
   "property": "C70",
   "status": "partial",
   "theorems": [
    "Textual.Tree.keys_reach_focus_partial",
    "Textual.Tree.set_target_partial",
    "Textual.Tree.hidden_gets_keys_counterexample",
    "Textual.Tree.stale_path_counterexample"
   ],
   "note": "False if a focusable widget is hidden in front of the focused one, or the focused widget is disabled (counterexamples). Proved for every history otherwise."
  },
  {
   "property": "C71",
   "status": "partial",
   "theorems": [
    "Textual.Tree.byId_focuses_partial",
    "Textual.Tree.byId_none",
    "Textual.Tree.byId_center_counterexample"
   ],
   "note": "False behind a Center/Middle whose child is not displayed (counterexample). Proved when, up to the target, reachable and visible mean the same."
  },
  {
   "property": "C72",
   "status": "proved",
   "theorems": [
    "Textual.Tree.W.matching_spec",
    "Textual.Tree.W.count_spec",
    "Textual.Tree.W.queryOne_spec",
    "Textual.Tree.W.queryLast_spec",
    "Textual.Tree.W.queryAll_spec",
    "Textual.Tree.selector_spec"
   ],
   "note": ""
  },
  {
   "property": "C73",
   "status": "partial",
   "theorems": [
    "Textual.Tree.bubble_climbs_partial",
    "Textual.Tree.climb_spec",
    "Textual.Tree.bubble_screen_counterexample"
   ],
   "note": "False at Screen and AppWidget, which forward the message down again (counterexample). Proved for the ancestors below them."
  },
  {
   "property": "C74",
   "status": "proved",
   "theorems": [
    "Textual.Tree.W.collect_spec",
    "Textual.Tree.W.collect_twice",
    "Textual.Tree.W.clearHover_spec",
    "Textual.Tree.W.tooltip_spec",
    "Textual.Tree.W.no_tooltip_after_clear"
   ],
   "note": ""
  },
  {
   "property": "C75",
   "status": "partial",
   "theorems": [
    "Textual.Binding.binding_exact",
    "Textual.Binding.order_irrelevant",
    "Textual.Binding.plus_comma_counterexample",
    "Textual.Binding.shift_tab_counterexample"
   ],
   "note": "The keys + and , cannot be bound at all, and Shift+Tab cannot be written shift+tab (counterexamples). Every binding written with the documented words is proved to match exactly its chords."
  },
  {
   "property": "C76",
   "status": "partial",
   "theorems": [
    "Textual.Input.type_inserts",
    "Textual.Input.backspace_removes",
    "Textual.Input.delete_removes",
    "Textual.Input.editor_partial",
    "Textual.Input.disabled_ignores",
    "Textual.Input.type_combining_counterexample"
   ],
   "note": "False for characters that join with their neighbours (counterexample): the text is right, the cursor is not. Proved for every history of keys with plain characters; the effect of each key on the text is proved for all characters."
  },
  {
   "property": "C77",
   "status": "proved",
   "theorems": [
    "Textual.Input.display_current",
    "Textual.Input.display_exact"
   ],
   "note": ""
  },
  {
   "property": "C78",
   "status": "proved",
   "theorems": [
    "Textual.OptionList.selection_valid",
    "Textual.OptionList.keys_select",
    "Textual.OptionList.keys_reach",
    "Textual.OptionList.select_chosen",
    "Textual.OptionList.items_chosen"
   ],
   "note": ""
  },
  {
   "property": "C79",
   "status": "partial",
   "theorems": [
    "Textual.OptionList.rows_exact",
    "Textual.OptionList.click_exact",
    "Textual.OptionList.click_report_partial",
    "Textual.OptionList.stale_click_counterexample"
   ],
   "note": "The report is not cleared when the options are replaced before it is taken, so it can name an option that does not exist (counterexample). Proved if the options are not replaced in between."
  },
  {
   "property": "C80",
   "status": "partial",
   "theorems": [
    "Textual.Palette.results_exact",
    "Textual.Palette.typing_searches",
    "Textual.Palette.stale_dropped",
    "Textual.Palette.closed_results_counterexample"
   ],
   "note": "Proved for the open palette, over all orders of answers and all histories. A closed palette can still be filled by answers already sent (counterexample)."
  },
  {
   "property": "C81",
   "status": "partial",
   "theorems": [
    "Textual.Palette.enter_runs_partial",
    "Textual.Palette.arrows_move",
    "Textual.Palette.click_runs",
    "Textual.Palette.highlight_counterexample",
    "Textual.Palette.hidden_click_counterexample"
   ],
   "note": "Clicks on a shown list are proved at all times; a hidden list still answers clicks (hidden_click_counterexample). Enter and the arrows are proved once every answer to the current query has been received; between typing and the first answer Enter does not run the highlighted row (counterexample)."
  },
  {
   "property": "C82",
   "status": "proved",
   "theorems": [
    "Textual.Palette.only_offered"
   ],
   "note": ""
  },
  {
   "property": "C83",
   "status": "proved",
   "theorems": [
    "Textual.Palette.events_alternate"
   ],
   "note": ""
  },
  {
   "property": "C84",
   "status": "proved",
   "theorems": [
    "Textual.Palette.focus_step",
    "Textual.Palette.focus_restored"
   ],
   "note": ""
  },
  {
   "property": "C85",
   "status": "partial",
   "theorems": [
    "Textual.Palette.busy_off_partial",
    "Textual.Palette.busy_late_counterexample",
    "Textual.Palette.busy_empty_counterexample"
   ],
   "note": "False if the last answer comes late or is empty (counterexamples). Proved for searches without any hit and for a last answer with hits that comes early."
  },
  {
   "property": "C86",
   "status": "partial",
   "theorems": [
    "Textual.Palette.confirm_runs_partial",
    "Textual.Palette.confirm_counterexample"
   ],
   "note": "False if a provider is still searching when the command is chosen (counterexample)."
  },
  {
   "property": "C87",
   "status": "partial",
   "theorems": [
    "Textual.Restyle.frame_exact_partial",
    "Textual.Restyle.restyle_only_styles",
    "Textual.Restyle.frame_idle",
    "Textual.Restyle.setter_effect",
    "Textual.Restyle.container_names",
    "Textual.Restyle.bare_counterexample",
    "Textual.Restyle.layout_counterexample",
    "Textual.Restyle.inherent_add_class_counterexample"
   ],
   "note": "Proved over all trees and histories for widgets that store their style and stylesheets that do not style a Container by its layout name. False below Center and Middle, for Container rules by layout name, and for the inherent Static::add_class (counterexamples)."
  },
  {
   "property": "C88",
   "status": "partial",
   "theorems": [
    "Textual.Restyle.nearest_wins",
    "Textual.Restyle.nearest_wins_partial",
    "Textual.Restyle.behind_exact",
    "Textual.Restyle.behind_partial"
   ],
   "note": "Proved for every tree with exact styles; over histories with the restrictions of C87."
  },
  {
   "property": "C89",
   "status": "partial",
   "theorems": [
    "Textual.Restyle.inline_color_partial",
    "Textual.Restyle.inline_background",
    "Textual.Restyle.inline_tint",
    "Textual.Restyle.inline_color_counterexample"
   ],
   "note": "Backgrounds and tints are proved. An inline text colour is ignored if the stylesheet's colour is auto (counterexample), as for every Placeholder."
  },
  {
   "property": "C90",
   "status": "partial",
   "theorems": [
    "Textual.RenderCache.line_width_partial",
    "Textual.RenderCache.narrow_widget_counterexample",
    "Textual.RenderCache.padding_counterexample",
    "Textual.RenderCache.narrow_label_counterexample"
   ],
   "note": "Proved for all styles and labels of one-column characters if borders, padding and outline fit and the widget is six columns wide when it has a label. Otherwise lines come out too long (counterexamples)."
  },
  {
   "property": "C91",
   "status": "proved",
   "theorems": [
    "Textual.RenderCache.edges_exact",
    "Textual.RenderCache.inner_size_exact",
    "Textual.RenderCache.content_line",
    "Textual.RenderCache.content_at"
   ],
   "note": "For lines that are not cut inside a wide character."
  },
  {
   "property": "C92",
   "status": "partial",
   "theorems": [
    "Textual.RenderCache.title_line",
    "Textual.RenderCache.subtitle_line",
    "Textual.RenderCache.title_counterexample"
   ],
   "note": "Labels of one-column characters, without outline. A widget one row high with only a bottom border does not show its title (counterexample)."
  },
  {
   "property": "C93",
   "status": "partial",
   "theorems": [
    "Textual.RenderCache.outline_line_partial",
    "Textual.RenderCache.renderLine_outline",
    "Textual.RenderCache.outline_counterexample"
   ],
   "note": "False for rows where a label replaces the content between side borders: the outline is missing there (counterexample)."
  },
  {
   "property": "C94",
   "status": "partial",
   "theorems": [
    "Textual.RenderCache.border_glyphs_partial",
    "Textual.RenderCache.border_kind_counterexample"
   ],
   "note": "False if an edge has another kind than the top edge: the characters of the top are used, blanks if it has none (counterexample)."
  },
  {
   "property": "C95",
   "status": "partial",
   "theorems": [
    "Textual.RenderCache.history_partial",
    "Textual.RenderCache.border_colors_partial",
    "Textual.RenderCache.border_looks_partial",
    "Textual.RenderCache.history_counterexample"
   ],
   "note": "False for colours that differ in alpha only (counterexample). Proved over all histories otherwise, for all kinds of border with one kind on all edges."
  },
  {
   "property": "C96",
   "status": "partial",
   "theorems": [
    "Textual.Static.links_exact_partial",
    "Textual.Static.links_row_counterexample"
   ],
   "note": "False if a title is shown between side borders without a top border (counterexample); otherwise proved without outline for lines that are not cut inside a wide character."
  },
  {
   "property": "C97",
   "status": "proved",
   "theorems": [
    "Textual.Static.align_fills",
    "Textual.Static.align_places"
   ],
   "note": "Lines of one-column spaces; justified lines inside a paragraph are covered by the theorems on justification (C59-C67)."
  },
  {
   "property": "C98",
   "status": "proved",
   "theorems": [
    "Textual.Static.click_last",
    "Textual.Static.hover_last",
    "Textual.Static.change_redraws"
   ],
   "note": ""
  },
  {
   "property": "C99",
   "status": "proved",
   "theorems": [
    "Textual.Static.restyle_keeps_layout"
   ],
   "note": ""
  },
  {
   "property": "C100",
   "status": "partial",
   "theorems": [
    "Textual.Static.auto_height_partial",
    "Textual.Static.auto_height_least",
    "Textual.Static.auto_height_counterexample",
    "Textual.Static.auto_height_keyline_counterexample"
   ],
   "note": "False for labels between side borders and for keylines (counterexamples). Proved otherwise."
  },
  {
   "property": "C101",
   "status": "partial",
   "theorems": [
    "Textual.Static.auto_width_partial",
    "Textual.Static.line_padding",
    "Textual.Static.auto_width_counterexample"
   ],
   "note": "False for text with markup (counterexample). Proved for plain text whose white space has a width and whose lines are not only white space."
  },
  {
   "property": "C102",
   "status": "partial",
   "theorems": [
    "Textual.Scroller.bars_partial",
    "Textual.Scroller.bars_counterexample"
   ],
   "note": "False for children that get less tall in a narrower area (counterexample: the bar covers content). Proved if less room never makes content fit."
  },
  {
   "property": "C103",
   "status": "partial",
   "theorems": [
    "Textual.Scroller.parts_tile_partial",
    "Textual.Scroller.inside_chrome",
    "Textual.Scroller.parts_counterexample"
   ],
   "note": "False if a bar is larger than the area (counterexample). A gutter reserved without its bar belongs to no part and is left out."
  },
  {
   "property": "C104",
   "status": "proved",
   "theorems": [
    "Textual.Scroller.position_in_content",
    "Textual.Scroller.rows_reachable"
   ],
   "note": "Style fixed over the history; content, regions and screen size may change with every event."
  },
  {
   "property": "C105",
   "status": "partial",
   "theorems": [
    "Textual.Scroller.drag_follows_partial",
    "Textual.Scroller.drag_follows_sideways_partial",
    "Textual.Scroller.release_lets_go",
    "Textual.Scroller.drag_jump_counterexample",
    "Textual.Scroller.drag_end_counterexample"
   ],
   "note": "The thumb is within one cell of the pointer. A drag without movement can scroll, and the end may not be reached (counterexamples)."
  },
  {
   "property": "C106",
   "status": "partial",
   "theorems": [
    "Textual.Scroller.mouse_to_drawn_partial",
    "Textual.Scroller.drawn_gets_mouse_partial",
    "Textual.Scroller.vw_counterexample",
    "Textual.Scroller.overlap_counterexample"
   ],
   "note": "One level of children. False for vw/vh lengths and for overlapping children (counterexamples)."
  },
  {
   "property": "C107",
   "status": "partial",
   "theorems": [
    "Textual.Pane.drawn_current_partial",
    "Textual.Pane.stale_counterexample"
   ],
   "note": "False if a child changes size without the container being told (counterexample); proved if it is told before it is used again."
  },
  {
   "property": "C108",
   "status": "partial",
   "theorems": [
    "Textual.Pane.rows_reachable_partial",
    "Textual.Pane.never_sideways",
    "Textual.Pane.sideways_counterexample",
    "Textual.Pane.last_row_counterexample",
    "Textual.Pane.wrapping_counterexample",
    "Textual.Pane.small_counterexample"
   ],
   "note": "A plain container never scrolls sideways (proved for all histories). Rows are lost below a horizontal bar, in wrapping text, and in areas of less than three rows (proved for all histories); otherwise each cell can be reached."
  },
  {
   "property": "C109",
   "status": "partial",
   "theorems": [
    "Textual.Pane.mouse_to_drawn_partial",
    "Textual.Pane.border_counterexample",
    "Textual.Pane.under_bar_counterexample",
    "Textual.Pane.first_counterexample"
   ],
   "note": "False with border or padding, with bars or gutter, and for overlapping children (counterexamples). Proved when the content area is the whole region."
  },
  {
   "property": "C110",
   "status": "proved",
   "theorems": [
    "Textual.Scroller.key_steps",
    "Textual.Scroller.key_passes",
    "Textual.Scroller.wheel_steps",
    "Textual.Scroller.press_vertical",
    "Textual.Scroller.press_horizontal"
   ],
   "note": "f32 page size taken as exact."
  },
  {
   "property": "C111",
   "status": "proved",
   "theorems": [
    "Textual.Screen.reached_spec",
    "Textual.Screen.classes_for_size",
    "Textual.Screen.greatest_reached",
    "Textual.Screen.change_asks_redraw"
   ],
   "note": "Breakpoints are usize pairs, modelled as Nat."
  },
  {
   "property": "C112",
   "status": "partial",
   "theorems": [
    "Textual.Screen.bars_partial",
    "Textual.Screen.cover_counterexample",
    "Textual.Screen.no_bar_counterexample"
   ],
   "note": "False with overflow-x auto (a bar drawn over the children) and for children that get less tall when narrower (counterexamples); proved for overflow-x hidden, the default."
  },
  {
   "property": "C113",
   "status": "partial",
   "theorems": [
    "Textual.Screen.mouse_to_drawn_partial",
    "Textual.Screen.docked_counterexample",
    "Textual.Screen.under_bar_counterexample"
   ],
   "note": "False for docked children of a scrolled screen and under a horizontal bar (counterexamples). One level of children."
  },
  {
   "property": "C114",
   "status": "partial",
   "theorems": [
    "Textual.Screen.rows_reachable_partial",
    "Textual.Screen.last_row_counterexample",
    "Textual.Screen.small_counterexample"
   ],
   "note": "False with overflow-x auto and for areas of one row (counterexamples)."
  },
  {
   "property": "C115",
   "status": "partial",
   "theorems": [
    "Textual.Classes.classes_as_told_partial",
    "Textual.Classes.tidy_own",
    "Textual.Classes.change_marks_partial",
    "Textual.Classes.listed_twice_counterexample",
    "Textual.Classes.added_twice_counterexample",
    "Textual.Classes.unmarked_counterexample"
   ],
   "note": "False for classes listed twice, and for widgets built on a text (button, input), which push duplicates and do not mark themselves (counterexamples)."
  },
  {
   "property": "C116",
   "status": "partial",
   "theorems": [
    "Textual.Classes.button_classes_partial",
    "Textual.Classes.replaced_counterexample",
    "Textual.Classes.compact_unmarked_counterexample"
   ],
   "note": "False with with_classes; making a button compact does not mark it (counterexamples)."
  },
  {
   "property": "C117",
   "status": "partial",
   "theorems": [
    "Textual.Scroller.gutter_stable",
    "Textual.Pane.gutter_area_partial",
    "Textual.Pane.gutter_counterexample",
    "Textual.Screen.gutter_area_partial",
    "Textual.Screen.gutter_counterexample"
   ],
   "note": "Proved for scrolling containers. False for plain containers and screens: the children are laid out under the gutter while they fit (counterexamples); only the visible area is stable."
  },
  {
   "property": "C118",
   "status": "proved",
   "theorems": [
    "Textual.Press.Switch.value_told",
    "Textual.Press.Switch.change_marks",
    "Textual.Press.Switch.key_toggles"
   ],
   "note": "Keys as delivered by the focus path (C70)."
  },
  {
   "property": "C119",
   "status": "partial",
   "theorems": [
    "Textual.Press.Switch.click_toggles_partial",
    "Textual.Press.Switch.click_counterexample",
    "Textual.Press.Button.click_fires_partial",
    "Textual.Press.Button.click_counterexample",
    "Textual.Press.Button.fires_le_presses"
   ],
   "note": "False after a press begun on the widget was let go elsewhere (counterexamples); for a button the mouse may even have moved since. Otherwise exact, for one mouse button at a time and a fixed region."
  },
  {
   "property": "C120",
   "status": "partial",
   "theorems": [
    "Textual.Press.Switch.hover_partial",
    "Textual.Press.Button.hover_partial",
    "Textual.Press.hover_counterexample"
   ],
   "note": "Only moves count; a drag leaves the hovering as it was (counterexample)."
  },
  {
   "property": "C121",
   "status": "partial",
   "theorems": [
    "Textual.Loop.restored_partial",
    "Textual.Loop.panic_counterexample",
    "Textual.Loop.half_way_counterexample"
   ],
   "note": "False after a panic or a failing terminal command (counterexamples); otherwise proved."
  },
  {
   "property": "C122",
   "status": "partial",
   "theorems": [
    "Textual.Loop.always_current_partial",
    "Textual.Loop.redraw_current",
    "Textual.Loop.size_last",
    "Textual.Loop.key_counterexample",
    "Textual.Loop.message_counterexample"
   ],
   "note": "False for keys and messages that change what is seen but not the focus (counterexamples). Handlers are arbitrary functions on program and tree."
  },
  {
   "property": "C123",
   "status": "partial",
   "theorems": [
    "Textual.Loop.kept_partial",
    "Textual.Loop.rebuilt_forgets",
    "Textual.Loop.tab_counterexample",
    "Textual.Loop.palette_counterexample"
   ],
   "note": "False for programs that always ask for a rebuild (rebuilt_forgets, counterexamples); proved for programs that never do."
  },
  {
   "property": "C124",
   "status": "partial",
   "theorems": [
    "Textual.Loop.shown_rested",
    "Textual.Loop.other_hides",
    "Textual.Loop.move_hides",
    "Textual.Loop.rested_shown",
    "Textual.Loop.click_before_counterexample"
   ],
   "note": "A click before the delay is over does not put the tooltip off (counterexample); all else proved. Times are natural numbers and in order."
  },
  {
   "property": "C125",
   "status": "partial",
   "theorems": [
    "Textual.Loop.tip_whole_partial",
    "Textual.Loop.tip_on_screen",
    "Textual.Loop.last_row_counterexample",
    "Textual.Loop.right_counterexample"
   ],
   "note": "False in the last row and at the right edge (counterexamples); style limits on size left out."
  },
  {
   "property": "C126",
   "status": "proved",
   "theorems": [
    "Textual.Timers.handled_in_order",
    "Textual.Timers.post_sends"
   ],
   "note": "The channel is trusted to be first in first out; when the loop ends, waiting messages are dropped."
  },
  {
   "property": "C127",
   "status": "proved",
   "theorems": [
    "Textual.Timers.timer_once",
    "Textual.Timers.timer_fires"
   ],
   "note": "tokio's sleep is trusted not to be ready early; fairness of the runtime is a hypothesis (the task runs again)."
  },
  {
   "property": "C128",
   "status": "partial",
   "theorems": [
    "Textual.Timers.interval_paced",
    "Textual.Timers.interval_rate",
    "Textual.Timers.interval_fires",
    "Textual.Timers.cancel_stops_partial",
    "Textual.Timers.dropped_never_sends",
    "Textual.Timers.late_cancel_counterexample"
   ],
   "note": "All but cancellation proved; a late task may still send the ticks due when it runs (counterexample). dropped_never_sends applies to the documentation's own examples."
  },
  {
   "property": "C129",
   "status": "partial",
   "theorems": [
    "Textual.Parse.sheet_written",
    "Textual.Parse.parse_source",
    "Textual.Parse.css_unambiguous",
    "Textual.Parse.broken_rule_skipped",
    "Textual.Parse.swallowed_rule_counterexample",
    "Textual.Parse.nested_rule_counterexample"
   ],
   "note": "Proved for the grammar of Spec/Sheet.lean, where an unknown property ends with a semicolon; without one it swallows the next rule, and mistakes in nested rules lose them silently (counterexamples). Sources with variables: parse_variables under C130."
  },
  {
   "property": "C130",
   "status": "partial",
   "theorems": [
    "Textual.Parse.value_text",
    "Textual.Parse.values_faithful",
    "Textual.Parse.sheet_values",
    "Textual.Parse.parse_css",
    "Textual.Parse.parse_variables",
    "Textual.Parse.three_values_counterexample",
    "Textual.Parse.important_counterexample"
   ],
   "note": "All kinds of values of all properties; false for three-valued spacing and for !important after text styles, layers, keylines, or without a blank (counterexamples). Numbers are exact; quoted hatch characters and opacities written as .5 are modelled but not in the grammar; what RgbaColor::parse understands is C36-C38."
  },
  {
   "property": "C131",
   "status": "partial",
   "theorems": [
    "Textual.Parse.no_panic_partial",
    "Textual.Parse.panic_counterexample"
   ],
   "note": "A `)` before the `(` of `rgb` or `hsl` panics (counterexample); no other text does. The depth of the stack is not modelled; arithmetic in the bodies of rgb() and hsl() and the named colours are parameters that do not panic."
  },
  {
   "property": "C132",
   "status": "partial",
   "theorems": [
    "Textual.Svg.text_shown_partial",
    "Textual.Svg.text_lost_counterexample",
    "Textual.Svg.reverse_counterexample",
    "Textual.Svg.title_counterexample"
   ],
   "note": "Unstyled text at the end of a row, dim, reverse and the title are lost (counterexamples); otherwise exact for rows of whole characters. Positions are in cells."
  },
  {
   "property": "C133",
   "status": "proved",
   "theorems": [
    "Textual.Svg.background_shown",
    "Textual.Svg.background_inside"
   ],
   "note": "Positions are in cells; the code multiplies them by the size of a cell in f32."
  },
  {
   "property": "C134",
   "status": "proved",
   "theorems": [
    "Textual.Svg.escape_read",
    "Textual.Svg.order_irrelevant"
   ],
   "note": "The fixed parts of the document are not modelled; characters that XML forbids are not kept out."
  },
  {
   "property": "C135",
   "status": "partial",
   "theorems": [
    "Textual.Svg.ansi_view",
    "Textual.Svg.ansi_tells",
    "Textual.Svg.ansi_columns_partial",
    "Textual.Svg.ansi_wide_counterexample"
   ],
   "note": "Texts and styles are exact for every canvas; columns are right without wide characters, which are followed by an extra blank (counterexample)."
  },
  {
   "property": "C136",
   "status": "partial",
   "theorems": [
    "Textual.Placeholder.wrap_fits",
    "Textual.Placeholder.wrap_keeps",
    "Textual.Placeholder.wrap_words",
    "Textual.Placeholder.wrap_tight",
    "Textual.Placeholder.wrap_unbroken",
    "Textual.Placeholder.wrap_blank_counterexample"
   ],
   "note": "All but blank lines proved; a line of spaces vanishes (counterexample). What is white space is a parameter; tabs and newlines have width 0 or more as given."
  },
  {
   "property": "C137",
   "status": "partial",
   "theorems": [
    "Textual.Placeholder.inside_partial",
    "Textual.Placeholder.hidden_draws_nothing",
    "Textual.Placeholder.label_text",
    "Textual.Placeholder.label_shown_partial",
    "Textual.Placeholder.auto_width_unbroken",
    "Textual.Placeholder.below_counterexample",
    "Textual.Placeholder.right_counterexample",
    "Textual.Placeholder.text_counterexample",
    "Textual.Placeholder.text_height_counterexample"
   ],
   "note": "False for areas smaller than the text (counterexamples); otherwise proved for every canvas and clip."
  },
  {
   "property": "C138",
   "status": "partial",
   "theorems": [
    "Textual.Placeholder.background_even_partial",
    "Textual.Placeholder.background_half",
    "Textual.Placeholder.text_color",
    "Textual.Placeholder.background_counterexample"
   ],
   "note": "False for translucent backgrounds (counterexample), proved for opaque ones."
  },
  {
   "property": "C139",
   "status": "partial",
   "theorems": [
    "Textual.Placeholder.colors_cycle",
    "Textual.Placeholder.rebuilt_colors",
    "Textual.Placeholder.rebuilt_counterexample",
    "Textual.Placeholder.clicks_cycle",
    "Textual.Placeholder.variants_cycle"
   ],
   "note": "False for the colours of a rebuilt screen unless it has a multiple of twelve placeholders (rebuilt_colors, counterexample); the rest proved."
  },
  {
   "property": "C140",
   "status": "partial",
   "theorems": [
    "Textual.Header.title_shown_partial",
    "Textual.Header.title_lost_counterexample",
    "Textual.Header.markup_shown_counterexample",
    "Textual.Header.title_panic_counterexample"
   ],
   "note": "Titles are markup (counterexamples). Proved for every history and every title and subtitle that escapes its brackets and backslashes or has none; what the markup parser takes from outside is a parameter, known to read `dim`."
  },
  {
   "property": "C141",
   "status": "partial",
   "theorems": [
    "Textual.Header.icon_opens_partial",
    "Textual.Header.icon_counterexample",
    "Textual.Header.icon_le_presses"
   ],
   "note": "False after a press on the icon that is released elsewhere (counterexample); proved for histories without such a release, and for all of them that no press opens twice."
  },
  {
   "property": "C142",
   "status": "partial",
   "theorems": [
    "Textual.Header.tall_partial",
    "Textual.Header.tall_counterexample",
    "Textual.Header.label_partial",
    "Textual.Header.label_counterexample",
    "Textual.Header.ruler_partial",
    "Textual.Header.ruler_counterexample"
   ],
   "note": "False when class calls overwrite the class (counterexamples); proved for histories whose other calls leave it alone."
  },
  {
   "property": "C143",
   "status": "partial",
   "theorems": [
    "Textual.Small.ruler_ticks",
    "Textual.Small.hidden_ruler",
    "Textual.Small.spinner_redrawn",
    "Textual.Small.spinner_partial",
    "Textual.Small.spinner_counterexample",
    "Textual.Small.corner_fills"
   ],
   "note": "A spinner in an empty area still draws (counterexample); rulers start on the canvas; corners are filled with opaque colours; the rest proved for every area, canvas and clip."
  },
  {
   "property": "C144",
   "status": "partial",
   "theorems": [
    "Textual.Defaults.same_look_partial",
    "Textual.Defaults.same_look_counterexample"
   ],
   "note": "False when default styles of two widgets have equally specific rules for one widget (counterexample: option lists in containers). Proved for all other cases, from the texts to the computed value; text styles, which accumulate, are left out."
  },
  {
   "property": "C145",
   "status": "partial",
   "theorems": [
    "Textual.Defaults.app_wins_partial",
    "Textual.Defaults.app_wins_counterexample"
   ],
   "note": "False for more specific default rules (counterexample). Proved for equally or less specific ones, in every order."
  },
  {
   "property": "C146",
   "status": "partial",
   "theorems": [
    "Textual.Defaults.defaults_present_partial",
    "Textual.Defaults.defaults_counterexample"
   ],
   "note": "False for widgets that first appear in a rebuild (counterexample): the stylesheet is made once. Proved for those of the first tree, and that there are no other rules."
  },
  {
   "property": "C147",
   "status": "partial",
   "theorems": [
    "Textual.Parse.written_used_partial",
    "Textual.Parse.unwritten_unset_partial",
    "Textual.Parse.gives_unique"
   ],
   "note": "From the text to the computed value for every property and part; text styles that accumulate and the two flags kept beside `color` and `visibility` are left out. `reach` is the first matching selector of a list, as in C32."
  },
  {
   "property": "C148",
   "status": "proved",
   "theorems": [
    "Textual.Theme.documented_defined",
    "Textual.Theme.used_defined",
    "Textual.Theme.documented_used"
   ],
   "note": "The names used by the default styles are listed in Spec/Theme.lean with their places; the Lab conversion is any function."
  },
  {
   "property": "C149",
   "status": "proved",
   "theorems": [
    "Textual.Theme.warning_only",
    "Textual.Theme.error_only",
    "Textual.Theme.success_only",
    "Textual.Theme.accent_only",
    "Textual.Theme.panel_only",
    "Textual.Theme.secondary_only",
    "Textual.Theme.surface_only",
    "Textual.Theme.boost_only",
    "Textual.Theme.foreground_only",
    "Textual.Theme.primary_only"
   ],
   "note": "Colours that others are derived from when these are not given (secondary, surface, boost, foreground, primary) are shown not to matter once those are given."
  },
  {
   "property": "C150",
   "status": "partial",
   "theorems": [
    "Textual.Theme.given_shown_partial",
    "Textual.Theme.given_exact",
    "Textual.Theme.given_shown_counterexample",
    "Textual.Theme.red_darkens"
   ],
   "note": "False by one step (counterexample: pure red as error gives 254). Proved over the real numbers that no channel is off by more than one step; exact whenever the conversion is."
  },
  {
   "property": "C151",
   "status": "partial",
   "theorems": [
    "Textual.Theme.contrast_readable",
    "Textual.Theme.auto_readable",
    "Textual.Theme.text_adapts",
    "Textual.Theme.default_foreground_partial",
    "Textual.Theme.default_foreground_counterexample"
   ],
   "note": "The default foreground of a theme is the inverse of its background and cannot be read on mid grey (counterexample); the others are proved."
  },
  {
   "property": "C152",
   "status": "partial",
   "theorems": [
    "Textual.RgbaColor.hsl_channels_partial",
    "Textual.RgbaColor.fromHsl_channels",
    "Textual.RgbaColor.hsl_hue_counterexample"
   ],
   "note": "False for hues two turns away (counterexample: 720 is black). Proved from -240 to 600 degrees."
  },
  {
   "property": "C153",
   "status": "partial",
   "theorems": [
    "Textual.RgbaColor.rgb_text",
    "Textual.RgbaColor.rgba_text",
    "Textual.RgbaColor.rgb_range",
    "Textual.RgbaColor.rgb_only_numbers",
    "Textual.RgbaColor.hsl_text",
    "Textual.RgbaColor.parse_valid",
    "Textual.RgbaColor.opacity_counterexample"
   ],
   "note": "The opacity is not limited to 0..1 (counterexample); the rest proved. How a fractional number is read is a parameter."
  },
  {
   "property": "C154",
   "status": "partial",
   "theorems": [
    "Textual.Tree.query_partial",
    "Textual.Tree.classes_spec",
    "Textual.Tree.flags_spec",
    "Textual.Tree.removed_then_none",
    "Textual.Tree.last_filter_only",
    "Textual.Tree.filters_counterexample",
    "Textual.Tree.descendant_counterexample"
   ],
   "note": "False for several filters (the last replaces the others) and for the documented selector '#items Label' (counterexamples). Proved for at most one filter."
  },
  {
   "property": "C155",
   "status": "partial",
   "theorems": [
    "Textual.Layout.Intrinsic.column_fits_partial",
    "Textual.Layout.Intrinsic.row_fits_partial",
    "Textual.Layout.Intrinsic.wrapped_counterexample",
    "Textual.Layout.Intrinsic.min_height_counterexample",
    "Textual.Layout.Intrinsic.grid_counterexample",
    "Textual.Layout.Intrinsic.long_counterexample",
    "Textual.Layout.Intrinsic.container_asks"
   ],
   "note": "False for wrapping text, minimal heights, grids and children over 1000 cells (counterexamples). Proved for columns and rows of children sized in cells or by their content, with whole margins."
  },
  {
   "property": "C156",
   "status": "partial",
   "theorems": [
    "Textual.GridWidget.lines_clear_partial",
    "Textual.GridWidget.lines_separate_partial",
    "Textual.GridWidget.lines_frame_partial",
    "Textual.GridWidget.gutter_counterexample",
    "Textual.GridWidget.align_counterexample",
    "Textual.GridWidget.tall_counterexample",
    "Textual.GridWidget.plain_counterexample"
   ],
   "note": "False without gutters, for children aligned right or at the bottom, for children taller than their row and for plain containers (counterexamples). Proved for grids with gutters of at least one cell whose tracks fit (fr_fits: flexible ones do)."
  },
  {
   "property": "C157",
   "status": "partial",
   "theorems": [
    "Textual.GridWidget.mouse_partial",
    "Textual.GridWidget.tidy_apart",
    "Textual.GridWidget.padded_mouse_counterexample"
   ],
   "note": "False with a border or padding (counterexample): the mouse is looked up in the whole area, the children are drawn in the inner one. Proved without."
  },
  {
   "property": "C158",
   "status": "partial",
   "theorems": [
    "Textual.ScrollBarWidget.held_partial",
    "Textual.ScrollBarWidget.asks_only",
    "Textual.ScrollBarWidget.press_asks",
    "Textual.ScrollBarWidget.drag_follows_partial",
    "Textual.ScrollBarWidget.release_counterexample",
    "Textual.ScrollBarWidget.range_counterexample",
    "Textual.ScrollBarWidget.still_counterexample",
    "Textual.ScrollBarWidget.long_counterexample"
   ],
   "note": "False when the button is released beside the bar (it stays held), beyond the ends, for a hold without movement and for content longer than a bar times the window (counterexamples). Proved otherwise; f32 as exact rationals."
  },
  {
   "property": "C159",
   "status": "partial",
   "theorems": [
    "Textual.Settings.kept_partial",
    "Textual.Settings.lost_counterexample",
    "Textual.Settings.class_kept_partial",
    "Textual.Settings.class_lost_counterexample",
    "Textual.Settings.hide_partial",
    "Textual.Settings.hide_counterexample"
   ],
   "note": "Proved for the settings a widget implements; for all others the call is ignored (lost_counterexample is about each such pair of widget and setting), among them hiding a button or label and adding a class to a Vertical, Horizontal, Grid or Screen."
  },
  {
   "property": "C160",
   "status": "partial",
   "theorems": [
    "Textual.Centre.in_the_middle_partial",
    "Textual.Centre.both_partial",
    "Textual.Centre.mouse_where_drawn",
    "Textual.Centre.one_child",
    "Textual.Centre.large_counterexample",
    "Textual.Centre.display_counterexample"
   ],
   "note": "Proved for children that fit. A larger child, and so each child that fills the space, is given an area that sticks out; a child with display: none is drawn (counterexamples)."
  },
  {
   "property": "C161",
   "status": "partial",
   "theorems": [
    "Textual.Sender.made",
    "Textual.Sender.same_message",
    "Textual.Sender.sender_partial",
    "Textual.Sender.sender_counterexample"
   ],
   "note": "False below Center and Middle, which name themselves (counterexample); proved for all trees without them."
  },
  {
   "property": "C162",
   "status": "partial",
   "theorems": [
    "Textual.Sender.topmost",
    "Textual.Sender.palette_alone",
    "Textual.Sender.blocks_partial",
    "Textual.Sender.blocks_counterexample"
   ],
   "note": "A layer that blocks without answering does not block, since the implementation for boxed widgets does not forward blocks_mouse_events (counterexample). Proved otherwise, and for the open palette, which the event loop treats on its own."
  },
  {
   "property": "C163",
   "status": "partial",
   "theorems": [
    "Textual.Fade.full",
    "Textual.Fade.part",
    "Textual.Fade.gone",
    "Textual.Fade.fade_wf",
    "Textual.Fade.each_line",
    "Textual.Fade.gone_counterexample"
   ],
   "note": "Proved for every line; at opacity 0 the characters are replaced by blanks but an underline or strike through stays (gone_counterexample)."
  },
  {
   "property": "C164",
   "status": "partial",
   "theorems": [
    "Textual.Fade.hatch_partial",
    "Textual.Fade.hatch_wf",
    "Textual.Fade.text_counterexample",
    "Textual.Fade.border_counterexample",
    "Textual.Fade.wide_counterexample",
    "Textual.Fade.tint_cells",
    "Textual.Fade.rows"
   ],
   "note": "Characters, positions, backgrounds and attributes proved for every line and hatch characters one column wide. Colours of other characters are kept only if no piece of the line mixes them with blanks or holds the hatch character (counterexamples)."
  },
  {
   "property": "C165",
   "status": "partial",
   "theorems": [
    "Textual.FromMarkup.same_colour_partial",
    "Textual.FromMarkup.names_in_markup",
    "Textual.FromMarkup.bright_counterexample"
   ],
   "note": "False for the eight bright_ names, which a stylesheet rejects (counterexample); proved for every other name, for #rgb, #rrggbb and rgb(). White space and lower case are those of ASCII."
  },
  {
   "property": "C166",
   "status": "partial",
   "theorems": [
    "Textual.FromMarkup.drawn_partial",
    "Textual.FromMarkup.drawn_chars_partial",
    "Textual.FromMarkup.escaped",
    "Textual.FromMarkup.blink_counterexample"
   ],
   "note": "Blink is lost (counterexample); colours, the other attributes, links, text and lines are proved, for tags that stand between graphemes (always so if each character is a grapheme of its own)."
  },
  {
   "property": "C167",
   "status": "partial",
   "theorems": [
    "Textual.Provider.search_partial",
    "Textual.Provider.found_row",
    "Textual.Provider.offered_row",
    "Textual.Provider.offered_sorted",
    "Textual.Provider.offered_as_given"
   ],
   "note": "Proved for every list of commands and query, except that letters in order but too far to the right are not found (match_complete_counterexample of C16). Scores as exact rationals."
  },
  {
   "property": "C168",
   "status": "proved",
   "theorems": [
    "Textual.Provider.exact_highest",
    "Textual.Provider.exact_first"
   ],
   "note": "For every palette whose providers are lists of commands; scores as exact rationals."
  },
  {
   "property": "C169",
   "status": "partial",
   "theorems": [
    "Textual.Provider.dispatch_spec",
    "Textual.Provider.quit_quits",
    "Textual.Provider.offered_counterexample"
   ],
   "note": "The names do what they say, but four of the five commands offered by default name actions that do nothing (counterexample)."
  },
  {
   "property": "C170",
   "status": "proved",
   "theorems": [
    "Textual.Ui.ui_sound",
    "Textual.Ui.widget_sound"
   ],
   "note": "For every text and every parser of expressions that takes tokens from the front."
  },
  {
   "property": "C171",
   "status": "partial",
   "theorems": [
    "Textual.Ui.ui_complete_partial",
    "Textual.Ui.splats_counterexample"
   ],
   "note": "Two splats in a row are read as one range expression (counterexample); proved for all other trees of expressions that end at a comma or an identifier."
  },
  {
   "property": "C172",
   "status": "partial",
   "theorems": [
    "Textual.BarColours.colours_of",
    "Textual.BarColours.scroller_colours_partial",
    "Textual.BarColours.screen_colours",
    "Textual.BarColours.sticky_counterexample",
    "Textual.BarColours.container_counterexample"
   ],
   "note": "Proved for the screen; for scrolling containers if every release is inside them. A release elsewhere is not noticed, and plain containers never change colour (counterexamples)."
  },
  {
   "property": "C173",
   "status": "partial",
   "theorems": [
    "Textual.Disabled.disabled_quiet_partial",
    "Textual.Disabled.link_counterexample",
    "Textual.Disabled.hidden_switch_counterexample"
   ],
   "note": "False for links in texts, which can be clicked although the text is disabled (counterexample); proved for switches, buttons, inputs, the header icon and texts without links. A hidden switch with the focus still answers to keys (counterexample)."
  },
  {
   "property": "C174",
   "status": "partial",
   "theorems": [
    "Textual.Nest.reached_seen_partial",
    "Textual.Nest.seen_reached_partial",
    "Textual.Nest.seen_once_partial",
    "Textual.Nest.border_counterexample",
    "Textual.Nest.asked_in_order"
   ],
   "note": "Containers as in C106, C109 and C113 (no drag on a bar under way, plain containers without border and bars, screens that do not scroll sideways and have no docked children, no sizes in units of the screen); for the second half no child is placed over another."
  },
  {
   "property": "C175",
   "status": "proved",
   "theorems": [
    "Textual.Theme.shades_lightness"
   ],
   "note": "Conversion to and from CIE Lab over the real numbers."
  },
  {
   "property": "C176",
   "status": "partial",
   "theorems": [
    "Textual.Press.switch_shows_partial",
    "Textual.Press.switch_inside",
    "Textual.Press.hidden_switch",
    "Textual.Press.narrow_counterexample"
   ],
   "note": "A switch in an area of less than ten columns draws beyond it (counterexample). The rest proved; blanks of the face are drawn if the switch has a text colour."
  },
  {
   "property": "C177",
   "status": "partial",
   "theorems": [
    "Textual.Nest.cell_of_seen",
    "Textual.Nest.cell_of_reached_partial",
    "Textual.Nest.terminal_of_reached_partial",
    "Textual.Nest.lines_inside",
    "Textual.Nest.beyond_counterexample"
   ],
   "note": "Containers as in C174, widgets that draw inside their region (false for those that do not: counterexample with a narrow switch); on the terminal for one-column characters."
  },
  {
   "property": "C178",
   "status": "partial",
   "theorems": [
    "Textual.Static.rows_on_canvas_wide_partial",
    "Textual.Static.text_on_canvas_wide_partial",
    "Textual.Static.textLines_columns",
    "Textual.Static.rows_on_canvas_partial",
    "Textual.Static.text_on_canvas_partial",
    "Textual.Static.textLines_one",
    "Textual.Static.paint_inside",
    "Textual.Static.half_glyph_counterexample",
    "Textual.Static.beyond_line_counterexample"
   ],
   "note": "Characters of any width but none (a character without columns at the end of a line is drawn beyond it: counterexample; of a wide one cut by the edge nothing is drawn: counterexample); for the place of the text no outline and no justified lines (their rows are covered by rows_on_canvas_wide_partial)."
  },
  {
   "property": "C179",
   "status": "partial",
   "theorems": [
    "Textual.Layout.Intrinsic.column_no_bars_partial",
    "Textual.Layout.Intrinsic.row_no_bars_partial",
    "Textual.Layout.Intrinsic.leading_margin_counterexample",
    "Textual.Layout.Intrinsic.gutter_counterexample",
    "Textual.Layout.Intrinsic.scroll_grid_counterexample",
    "Textual.Layout.Intrinsic.scroll_overflow_counterexample",
    "Textual.Layout.Intrinsic.scroller_asks",
    "Textual.Layout.Intrinsic.column_asked_partial",
    "Textual.Layout.Intrinsic.row_asked_partial"
   ],
   "note": "No bars: proved for columns and rows of children sized in cells or by their content, with whole margins, unless the bars are forced. No room left over: false, the margin before the first child is counted twice, and exactly that is left over. Also false for a stable gutter, for grids, and for sums over 65535 (overflow)."
  },
  {
   "property": "C180",
   "status": "partial",
   "theorems": [
    "Textual.Face.selectors_agree",
    "Textual.Face.classes_agree_partial",
    "Textual.Face.class_counterexample",
    "Textual.Face.own_name",
    "Textual.Face.names_stay_partial",
    "Textual.Face.names_counterexample",
    "Textual.Face.focus_follows_partial",
    "Textual.Face.hover_follows_partial",
    "Textual.Face.clear_hover_partial",
    "Textual.Face.clear_hover_counterexample",
    "Textual.Face.never_counterexample",
    "Textual.Face.disabled_follows_partial",
    "Textual.Face.simple_name",
    "Textual.Face.simple_name_counterexample"
   ],
   "note": "Id, focus and disabled agree for all 25 kinds and all histories. Classes agree except for Vertical, Horizontal, VerticalScroll, HorizontalScroll and Screen, which deny classes that selectors see; Container's type names change with its layout; only Button, Switch and HeaderIcon are ever :hover or :active, and the first and last stay :active when the pointer leaves."
  },
  {
   "property": "C181",
   "status": "partial",
   "theorems": [
    "Textual.Nest.widget_on_top_partial",
    "Textual.Nest.text_in_tree_partial",
    "Textual.Nest.text_in_tree_wide_partial"
   ],
   "note": "Proved for trees of any depth and size and any history before the frame. Containers are those of C174, whose children do not overlap, and draw nothing on their children (Tidy); text is of characters of at least one column, without outline, and fits its box (text_in_tree_wide_partial; a wide character shows if no part of it is clipped). Where these fail the code does cover widgets: beyond_counterexample (C177), C112."
  },
  {
   "property": "C182",
   "status": "partial",
   "theorems": [
    "Textual.GridWidget.clear_partial",
    "Textual.GridWidget.separate_partial",
    "Textual.GridWidget.around",
    "Textual.GridWidget.row_spaced",
    "Textual.GridWidget.column_spaced",
    "Textual.GridWidget.scrolled_counterexample",
    "Textual.GridWidget.touching_counterexample"
   ],
   "note": "Proved for containers that are not scrolled and children with a free cell around them, which margins of one cell give in rows and columns that fit. False when scrolled (the lines are drawn where the children were before scrolling) and without margins."
  },
  {
   "property": "C183",
   "status": "proved",
   "theorems": [
    "Textual.Bars.bar_shows",
    "Textual.Bars.thumb_on_screen",
    "Textual.Bars.compose_opaque"
   ],
   "note": "Refinement of the drawing calls to the one line of cells of C18, on any canvas. Opaque colours, as compose_colors makes them; f32 is exact; that the thumb is drawn at all is C18 (there is none if the content is exactly as long as the track)."
  },
  {
   "property": "C184",
   "status": "partial",
   "theorems": [
    "Textual.Bars.bar_inside",
    "Textual.Bars.after_clear",
    "Textual.Bars.chrome_inside",
    "Textual.Bars.tidy_partial",
    "Textual.Bars.widget_stays_partial",
    "Textual.Bars.narrow_counterexample"
   ],
   "note": "Discharges the hypothesis Tidy of C181 for real chrome and bars. Containers as in C174 (for plain ones: not scrolled and no bars, see C185), without keylines (C182), labels of one-column characters, room for chrome and bars: a container narrower than its bar draws it over its own left edge (counterexample)."
  },
  {
   "property": "C185",
   "status": "partial",
   "theorems": [
    "Textual.Bars.pane_clear_partial",
    "Textual.Bars.pane_cover_counterexample"
   ],
   "note": "Proved for overflow-x other than auto and room for the bars, for every state and layout. False with overflow-x: auto: a child that fits without the vertical bar and not beside it makes a horizontal bar appear over the last row of the children."
  },
  {
   "property": "C186",
   "status": "partial",
   "theorems": [
    "Typed.typed_partial",
    "Typed.named_after_type",
    "Typed.builtin_name",
    "Typed.builtin_partial",
    "Typed.scroller_counterexample",
    "Typed.goes_on_counterexample",
    "Typed.boxed_counterexample",
    "Typed.screen_is_screen",
    "Typed.pending_counterexample",
    "Typed.pending_once"
   ],
   "note": "Eleven widget types of the library do not hand themselves out and cannot be had by type; a widget boxed twice goes by the name Widget. The search goes on past a widget of another type although the documentation says None."
  },
  {
   "property": "C187",
   "status": "partial",
   "theorems": [
    "Life.one_at_a_time",
    "Life.in_order_partial",
    "Life.all_off_partial",
    "Life.balanced_partial",
    "Life.early_counterexample",
    "Life.replaced_counterexample"
   ],
   "note": "The order holds if the runtime lets the tasks take a lock in the order they were spawned and providers are not replaced while the palette is open. On several threads a provider may be asked before it is started; pressing the palette's key while it is open replaces the providers without shutting the old ones down. One call at a time holds for all schedules, and as many shutdowns as startups for all schedules without such replacements."
  },
  {
   "property": "C188",
   "status": "partial",
   "theorems": [
    "Textual.Layout.Units.row_width",
    "Textual.Layout.Units.row_height_partial",
    "Textual.Layout.Units.column_width_partial",
    "Textual.Layout.Units.column_height_partial",
    "Textual.Layout.Units.absolute_width",
    "Textual.Layout.Units.absolute_height",
    "Textual.Layout.Units.grid_partial",
    "Textual.Layout.Units.column_width_counterexample",
    "Textual.Layout.Units.column_height_counterexample",
    "Textual.Layout.Units.column_box_counterexample",
    "Textual.Layout.Units.row_height_counterexample",
    "Textual.Layout.Units.row_margin_counterexample",
    "Textual.Layout.Units.grid_counterexample",
    "Textual.Layout.Units.grid_limit_counterexample"
   ],
   "note": "Widths in rows and both sizes of absolute children: all units. Elsewhere some units are taken as cells or from the screen instead of the container, and content-box is ignored by columns and grids (counterexamples); the theorems name the units that work."
  },
  {
   "property": "C189",
   "status": "partial",
   "theorems": [
    "Textual.Static.covers_partial",
    "Textual.Static.covers_labelled_partial",
    "Textual.Static.background_partial",
    "Textual.Static.rendering_exact",
    "Textual.Static.label_exact",
    "Textual.Static.label_none",
    "Textual.Static.colour_on_screen_partial",
    "Textual.Static.narrow_label_counterexample",
    "Textual.Static.faded_label_counterexample"
   ],
   "note": "Missing: characters of other widths than one, colours that clash in the cache of boxes (C95), labels in widgets narrower than eight columns (counterexample: see-through ellipsis) or without a visible character, hatch and tint. Titles of faded widgets are on the unfaded background (counterexample)."
  },
  {
   "property": "C190",
   "status": "partial",
   "theorems": [
    "Textual.Wrap.behaves",
    "Textual.Wrap.label_like_partial",
    "Textual.Wrap.header_title_like_partial",
    "Textual.Wrap.header_clock_like_partial",
    "Textual.Wrap.search_icon_like_partial",
    "Textual.Wrap.header_like_partial",
    "Textual.Wrap.vertical_scroll_like_partial",
    "Textual.Wrap.horizontal_scroll_like_partial",
    "Textual.Wrap.command_input_like_partial",
    "Textual.Wrap.command_list_like_partial",
    "Textual.Wrap.label_tooltip_counterexample",
    "Textual.Wrap.title_link_counterexample",
    "Textual.Wrap.header_children_counterexample",
    "Textual.Wrap.scroll_class_counterexample",
    "Textual.Wrap.height_counterexample"
   ],
   "note": "Every theorem lists the calls that are answered otherwise: names and default styles (intended), and those that are lost (counterexamples: tooltips of labels, links in header titles, children and focus of headers, classes of scrolls)."
  },
  {
   "property": "C191",
   "status": "partial",
   "theorems": [
    "Textual.Pick.click_picks_partial",
    "Textual.Pick.option_seen_partial",
    "Textual.Pick.selected_seen_partial",
    "Textual.Pick.option_rows",
    "Textual.Pick.border_counterexample",
    "Textual.Pick.wheel_counterexample",
    "Textual.Pick.fold_counterexample",
    "Textual.Pick.hidden_selection_counterexample"
   ],
   "note": "Proved for lists without border or padding at the top that were not scrolled by the wheel and whose options take as many rows as they have lines (option_rows says when that holds); each restriction is shown necessary. The selected option is seen if the options fit (selected_seen_partial), otherwise it may not be (hidden_selection_counterexample)."
  },
  {
   "property": "C192",
   "status": "partial",
   "theorems": [
    "Textual.Typing.typed_seen_partial",
    "Textual.Typing.row_exact",
    "Textual.Typing.cursor_counterexample",
    "Textual.Typing.empty_counterexample",
    "Textual.Typing.blanks_counterexample",
    "Textual.Typing.long_counterexample"
   ],
   "note": "Proved without word wrapping, and with it for texts and cursors without blanks; one-column characters that fit. With word wrapping, the default of inputs, a cursor behind the end, an empty input, several blanks and long words are drawn wrongly (counterexamples)."
  },
  {
   "property": "C193",
   "status": "partial",
   "theorems": [
    "Textual.Snapshot.drawn_found_partial",
    "Textual.Snapshot.narrow_reads",
    "Textual.Snapshot.getChar_row",
    "Textual.Snapshot.drawn_has_bg",
    "Textual.Snapshot.snapshot_lines",
    "Textual.Snapshot.wide_counterexample",
    "Textual.Snapshot.cluster_counterexample"
   ],
   "note": "False for wide text (a blank is read behind every wide character) and behind graphemes of several characters (columns shift). Proved for every history of calls with one-character graphemes."
  },
  {
   "property": "C194",
   "status": "partial",
   "theorems": [
    "Textual.Keys.key_once",
    "Textual.Keys.widget_first",
    "Textual.Keys.widget_keys",
    "Textual.Keys.program_keys",
    "Textual.Keys.quits_iff",
    "Textual.Keys.typed_partial",
    "Textual.Keys.quit_counterexample",
    "Textual.Keys.release_counterexample",
    "Textual.Keys.ctrl_counterexample"
   ],
   "note": "Delivery and quitting are proved for every program and history. That typing only types is false with the default key handling (a word with a q ends the program), on terminals that report releases and for keys with Ctrl (counterexamples); otherwise proved for characters that do not combine."
  },
  {
   "property": "C195",
   "status": "partial",
   "theorems": [
    "Textual.Picture.same_picture_partial",
    "Textual.Picture.base_only",
    "Textual.Picture.computeStyle_filter",
    "Textual.Picture.scrollbar_counterexample",
    "Textual.Picture.ancestor_counterexample",
    "Textual.Picture.behind_counterexample",
    "Textual.Picture.focus_counterexample"
   ],
   "note": "False in general: a test has no rule for all widgets (scrollbar and link colours), no application above the screen (rules that name App, the colour behind a translucent screen) and no focus (counterexamples). Proved for everything else: same styles for the screen and all widgets in it."
  },
  {
   "property": "C196",
   "status": "partial",
   "theorems": [
    "Textual.Clicks.message_partial",
    "Textual.Clicks.action_partial",
    "Textual.Clicks.click_partial",
    "Textual.Clicks.stale_counterexample",
    "Textual.Clicks.border_counterexample"
   ],
   "note": "Exact for every history in trees of containers as in C174 (children not over each other, plain containers without border): a message or action is handled exactly at a release over the button that follows a press over it. False beyond: a press that is released elsewhere stays, so a later release over the button that was pressed elsewhere sends its message (stale_counterexample); in a bordered plain container a neighbour gets the click (border_counterexample)."
  },
  {
   "property": "C197",
   "status": "partial",
   "theorems": [
    "Textual.Tabs.keys_partial",
    "Textual.Tabs.enter_partial",
    "Textual.Tabs.usable_partial",
    "Textual.Tabs.hidden_counterexample"
   ],
   "note": "Proved for every tree that does not change while keys are pressed and has no focusable widget hidden in front of a reachable one, for widgets and programs that do anything with the keys but change the tree. False otherwise: with a hidden button in front Enter sends the message of the hidden button (hidden_counterexample)."
  },
  {
   "property": "C198",
   "status": "partial",
   "theorems": [
    "Textual.Canvas.draw_exact_partial",
    "Textual.Canvas.last_wins_partial",
    "Textual.Canvas.draw_exact_counterexample"
   ],
   "note": "Proved for all texts whose characters take at least one column and all histories. A character without columns erases the cell behind it (counterexample)."
  },
  {
   "property": "C199",
   "status": "partial",
   "theorems": [
    "Textual.Markup.action_scope_partial",
    "Textual.Markup.url_scope_partial",
    "Textual.Markup.bracket_counterexample",
    "Textual.Markup.quote_counterexample",
    "Textual.Static.line_actions",
    "Textual.Static.click_actions_partial",
    "Textual.Static.link_clicked_partial",
    "Textual.Static.click_actions_wide_partial",
    "Textual.Static.link_clicked_wide_partial"
   ],
   "note": "Proved for actions with balanced brackets (a bracket on its own ends the tag even in quotes, an escaped one keeps its backslash: counterexample) and addresses without quotes at their ends (counterexample). On the screen for characters of one or more columns, those wider than one in lines that fit, no outline and no title shown between side borders (C96). Which of several equal characters of the text a cell shows is left to C178."
  },
  {
   "property": "C200",
   "status": "partial",
   "theorems": [
    "Textual.Nest.hidden_unseen",
    "Textual.Nest.hiding_elsewhere",
    "Textual.Nest.visible_shown_partial",
    "Textual.Nest.screen_counterexample",
    "Textual.Nest.hidden_button_counterexample",
    "Textual.Nest.hidden_link_counterexample"
   ],
   "note": "Not seen: proved for all widgets but screens, which are drawn although hidden (counterexample). Seen in a hidden container: for trees as in C174 and C181. Cannot be used: false, a hidden button answers clicks (hidden_button_counterexample) and so do the links of a text hidden after it was drawn (hidden_link_counterexample), see also hidden_click_counterexample of C81."
  },
  {
   "property": "C201",
   "status": "partial",
   "theorems": [
    "Textual.LinkClicks.followed_partial",
    "Textual.LinkClicks.highlighted_partial",
    "Textual.LinkClicks.press_on_screen_partial",
    "Textual.LinkClicks.press_on_screen_wide_partial",
    "Textual.LinkClicks.border_counterexample"
   ],
   "note": "Containers as in C174, no text drawn twice, the palette closed; on the canvas for characters of one or more columns, those wider than one in lines that fit. Plain containers with a border hand presses to the wrong text (border_counterexample)."
  },
  {
   "property": "C202",
   "status": "partial",
   "theorems": [
    "Textual.Nest.one_moves_partial",
    "Textual.Nest.wheel_moves_partial",
    "Textual.Nest.nested_counterexample",
    "Textual.Nest.auto_counterexample",
    "Textual.Nest.overlap_moves_counterexample",
    "Textual.Nest.shift_counterexample"
   ],
   "note": "The containers around the one that moves do not scroll themselves: a scrolling container keeps the wheel from those in it (nested_counterexample), a plain one with overflow-y: auto also if it has nothing to scroll (auto_counterexample). Children that overlap all move (overlap_moves_counterexample); Shift is ignored by plain containers (shift_counterexample)."
  },
  {
   "property": "C203",
   "status": "partial",
   "theorems": [
    "Textual.Nest.roomy_shown",
    "Textual.Nest.ring_painted",
    "Textual.Nest.focus_seen_partial",
    "Textual.Nest.used_seen_partial",
    "Textual.Nest.below_counterexample"
   ],
   "note": "All containers are large enough for their children, whatever their positions were; conditions on the keys as in C197. A container with more children than it shows is not scrolled to the focus, so keys go to a button that is not drawn (below_counterexample)."
  },
  {
   "property": "C204",
   "status": "partial",
   "theorems": [
    "Textual.Form.own_keys_partial",
    "Textual.Form.edited_partial",
    "Textual.Form.filled_partial",
    "Textual.Form.form_partial",
    "Textual.Session.edited_partial",
    "Textual.Form.display_counterexample"
   ],
   "note": "Conditions on the tree as in C197 and on the characters as in C76; the program does nothing itself with keys (C194). With an input in front that has display: none the text goes into that one (display_counterexample)."
  },
  {
   "property": "C205",
   "status": "partial",
   "theorems": [
    "Textual.Clicks.point_other",
    "Textual.Clicks.point_move_partial",
    "Textual.Clicks.hover_tree_partial",
    "Textual.Clicks.hover_one_partial",
    "Textual.Clicks.told_same",
    "Textual.Nest.told_seen_partial",
    "Textual.Clicks.wheel_counterexample",
    "Textual.Clicks.hover_border_counterexample",
    "Textual.Nest.told_screen_counterexample"
   ],
   "note": "Holds for the last move of the mouse, for containers as in C174. Between moves the content may change under the pointer: after a turn of the wheel the old button stays hovered (wheel_counterexample). In a plain container with a border the wrong button is hovered (hover_border_counterexample). told_same shows that C196 also holds with the clearing of hover. A screen inside a container tells all its children that they are hovered (told_screen_counterexample)."
  },
  {
   "property": "C206",
   "status": "partial",
   "theorems": [
    "Textual.Toggles.told_partial",
    "Textual.Toggles.flipped_partial",
    "Textual.Toggles.clicks_partial",
    "Textual.Toggles.count_exists",
    "Textual.Toggles.heard_partial",
    "Textual.Toggles.stale_counterexample",
    "Textual.Toggles.buttons_counterexample",
    "Textual.Toggles.border_counterexample"
   ],
   "note": "For containers as in C174 and events inside the screen. A press that is not completed over the switch is remembered until the next move, so a later release over it turns it over (stale_counterexample); any mouse button works (buttons_counterexample); a plain container with a border hits the wrong switch (border_counterexample)."
  },
  {
   "property": "C207",
   "status": "partial",
   "theorems": [
    "Textual.Placeholders.cycled_partial",
    "Textual.Placeholders.shows_partial",
    "Textual.Placeholders.count_exists",
    "Textual.Placeholders.buttons_counterexample",
    "Textual.Placeholders.border_counterexample",
    "Textual.Placeholders.overlap_counterexample"
   ],
   "note": "For containers as in C174 and presses inside the screen. Any mouse button works (buttons_counterexample); a plain container with a border hits the wrong placeholder (border_counterexample), and one that places children over each other changes the covered ones too (overlap_counterexample)."
  },
  {
   "property": "C208",
   "status": "partial",
   "theorems": [
    "Textual.Options.picked_partial",
    "Textual.Options.unpicked",
    "Textual.Options.missed_partial",
    "Textual.Options.release_counterexample",
    "Textual.Pick.border_counterexample",
    "Textual.Pick.wheel_counterexample",
    "Textual.Pick.fold_counterexample"
   ],
   "note": "For containers as in C174 and lists as in C191, whose counterexamples hold here too: a border at the top, the wheel, folded options. The button need not have been pressed on the list (release_counterexample). unpicked holds of all trees and lists."
  },
  {
   "property": "C209",
   "status": "partial",
   "theorems": [
    "Textual.Isolation.isolated_partial",
    "Textual.Isolation.undisturbed_partial",
    "Textual.Isolation.places_exist",
    "Textual.Isolation.border_counterexample"
   ],
   "note": "widgets of any kinds (a parameter); containers as in C174, no wheel, palette closed; set_hover of a container taken as part of on_mouse, so no Screen inside a container; what the program does to widgets in handle_message left out; a plain container with a border breaks the claim (counterexample)"
  },
  {
   "property": "C210",
   "status": "partial",
   "theorems": [
    "Textual.Session.isolated_partial",
    "Textual.Session.undisturbed_partial",
    "Textual.Session.placed_exists",
    "Textual.Session.focus_partial",
    "Textual.Session.click_focus_counterexample"
   ],
   "note": "conditions on the tree as in C197 (no hidden focusable widget in front), on containers as in C174; no wheel, palette closed; set_focus(true) taken as part of on_event; the program does nothing to the widgets itself. A click on a widget does not give it the focus (click_focus_counterexample)"
  }
 ]
}