# Formal model of textual-rs: design and trusted base

Source: `/repo` (fcoury/textual-rs, pinned). The code is read as text; nothing is built or run.
The model is Lean 4 in `lean/Verif/`; every definition cites the file and lines it models.

## Layout

* `lean/Verif/Model/*.lean` — executable model of the code, function by function.
* `lean/Verif/Spec/*.lean` — declarative specifications used in theorem statements.
* `lean/Verif/Lemmas/*.lean` — helper lemmas.
* `lean/Verif/Props/*.lean` — the property theorems, each followed by `example`s showing non-trivial cases.
* `properties.jsonl` — the properties; `MANIFEST.json` — which theorems prove which property;
  `seeded/LOG.jsonl` — wrong-program experiments.

## Trusted base

* Lean 4.33 kernel; the axioms `propext`, `Classical.choice`, `Quot.sound` only (checked with `#print axioms`).
* The reading of the Rust code: each model definition is a hand translation.
* Integers: `i32`/`i64`/`usize` are modelled by `Int`/`Nat`, i.e. overflow is not modelled unless said so.
  Casts such as `as i32` of a float are modelled by truncation toward zero on rationals.
* Floats (`f32`/`f64`) are modelled by exact rationals; rounding of the float operations is not modelled.
  Theorems resting on that are labelled in the table below. Lab colours (C150) are modelled over the real numbers.
* Unicode: grapheme segmentation and display width are parameters. Text is a list of graphemes, each with its width.
* `HashMap` iteration order is a parameter (any order).
* Terminal: the model of what escape sequences do (`Verif/Model/Terminal.lean`) is trusted.

## Properties and plans

| id | model | how it is proved |
|----|-------|------------------|
| C01 | ScrollState over Int | invariant preserved by each operation, induction on histories; negative amounts break it (witness) |
| C02 | Fraction over Int | gcd lemmas, exactness against Rat |
| C03 | Region over Int | case analysis / omega |
| C04, C05, C07 | Canvas: cell list, clip stack | invariant over operation lists |
| C06 | flush as a list of terminal commands; terminal as a state machine | simulation invariant along the cell scan; drawing calls that cut no glyph keep frames whole (invariant: the frame is whole outside the cells the call has still to cover) |
| C08–C13 | Segment/Strip over lists of graphemes with width | refinement to the list of styled cells |
| C14 | Style.apply | algebra |
| C15, C16, C17 | fuzzy search (`f32` scores as rationals), highlight | soundness and optimality of the depth-first search by induction; C16 is false (witness); C17 through the markup lexer and parser |
| C52–C57 | rich markup: lexer, tag parser, style parser, span parser, segment iterator; byte offsets are UTF-8 sizes. Not modelled: colour name table, `rgb()` body, error payloads | parser invariant against a position-free reading of the tokens (`annotate`); laminar-family invariant; boundary fold of the iterator |
| C59–C67 | content.rs except markup conversion: lines, spans, both wrap algorithms, word breaking, fold/clip/ellipsis, link styles; white space is a parameter, offsets in bytes, no `\r\n` | loop invariants over words and byte positions against a per-character annotation (`Content.annotated`); greedy line count compared with every partition |
| C68–C74 | tree.rs with the focus methods of every container and leaf; a widget is a node with its answers to the trait's questions and a kind that selects the implementation. Not modelled: user widgets that override the tree methods, state kept by handlers | a widget is named by its path; every traversal is shown equal to a filter of the list of paths in document order; invariant over focus operations; C73 against a fold over the ancestors |
| C75 | matching of key events against binding texts (lib.rs:152-234); white space and lower case are parameters | splitting and trimming of joined words, fold over the words |
| C76, C77 | input.rs and grapheme.rs: keys, setters, display text; grapheme segmentation is a parameter (non-empty pieces that join to the text) | refinement to a zipper; the display text as a list of escaped pieces through the markup parser of C52–C57 |
| C78, C79 | option_list.rs: selection, rows, clicks; geometry and styles are not modelled | invariant over all operations; the nearest enabled option as a specification of the search loops; row sums; `keys_reach`: every option that can be chosen is reached with one arrow key, in at most as many presses as rows lie between |
| C80–C86 | command_palette.rs: search, answers, timers, choosing, events, focus; tasks are the messages they will send and may finish in any order; styles, geometry, the go button and the start-up of providers are not modelled | invariants over all operations and schedules (`Base`, `Inv`); the entries of a search are a permutation of the numbered hits; event automaton; provenance of every entry |
| C87–C89 | style_resolver.rs, the dirty flags and class/state setters of the widgets, `StyleOverride`, `effective_background`, the foreground of `rendering_style`; the cascade is a parameter (any function of the metas), delegating widgets are one widget, the recursion has a depth bound equal to the depth of the tree | invariant "a visible clean widget below clean widgets has its due style" kept by every call and turned by a redraw into exactness everywhere; induction on the path for inheritance |
| C90–C95 | render_cache.rs, border_box.rs, border_chars.rs, border_render.rs (not `render_middle_row`, which is unused) over the strip model of C01–C05; a border character is one grapheme of one column, paddings are natural numbers | every line is described column by column (`*_cells` lemmas), for caches made after any history of widgets; the table of boxes satisfies the invariant "each box was generated for its kind by styles with the remembered key". The width, label and outline theorems are consequences. Counterexamples are in `Props/RenderCacheCases.lean` |
| C96–C101 | static_widget.rs: drawing, alignment, link regions, mouse, automatic height and width, over the models of content.rs and render_cache.rs; inline markup is parsed elsewhere (C52–C57), style resolution is a parameter; the pointer and the region are integers | the rows drawn are described column by column; the regions recorded are compared with the metadata of the columns; histories of drawings and mouse events by induction on their last event; layout and styles commute (`wrapFull_plain`: erasing styles before or after wrapping is the same) |
| C102–C106, C110 | containers/scrollable.rs: `compute_scroll_layout`, the regions of content, bars and corner, keys, wheel, bar clicks and drags, and which child gets a mouse event; over the models of scroll.rs and scrollbar.rs. The layout of the children is a parameter (any function of area and screen size), the chrome is four numbers, `f32` is exact, and containers with `visibility: hidden`, colours and messages are left out | bars: the three rounds climb a monotone map on two flags, so they end at its least fixed point; regions: case analysis over all integers; position: every event is a chain of scroll steps and layouts that keep an invariant, by induction over histories; drag: exact rational arithmetic and floors; mouse: drawing and hit test agree on the plan, since laying out twice changes nothing |
| C107–C109 | containers/container.rs: the remembered layout, `render` as far as it places children and bars, wheel and mouse; the same parameters as C102–C106 | the remembered layout is that of the children last seen, by induction over histories, so drawing equals a drawing without memory (`drawPlain`); reachability by counting turns of the wheel; the negative results hold for all histories by invariants |
| C111–C114 | widget/screen.rs: responsive classes, `render` as far as it places children and bars, mouse and wheel; the same parameters as C102–C106, and which children are docked or absolute | classes: the last reached entry of a list, by induction; bars: without horizontal bar the flags of the first layout and those asked for after it agree; mouse: the area and the position used by the mouse code are those of the drawing; rows: counting turns of the wheel; the negative results by invariants over all positions or turns |
| C115, C116 | the class calls of `Widget` and `Static`, and button.rs: variant, style, compact | a reference answer folded over the calls, kept equal by induction with "no duplicates" as invariant; buttons: invariant counting how often each managed class is listed |
| C117 | the models of C102, C107 and C112, with the gutter | the content region is a function of region and style only; counterexamples where children are laid out in the whole region |
| C118–C120 | widget/switch.rs and widget/button.rs: input, states and dirty flag, with the routing of the event loop (moves clear hovering everywhere, the widget under the pointer gets the event); Spec/Press.lean describes the hand on the mouse | induction over histories with reference folds (value told, last move, hand) kept in step with the widget; marks: by contraposition over each event; number of presses as a potential |
| C121–C123 | lib.rs:647-1113: terminal session, the loop's redraw and rebuild flags; program, tree and view are arbitrary types, an event carries what its handlers amount to | case analysis over failing commands; invariant between events (no flag pending, focus index followed) by induction over histories |
| C124–C125 | lib.rs:743-746, 827-856, 1024-1086 and widget/tooltip.rs: the tooltip variables and the widget; style limits on its size left out | invariant against a reference fold (where the mouse rests since when), induction over timed histories; regions by linear arithmetic |
| C126–C128 | context.rs and message.rs: posts, timers, intervals, cancellation, the channel and the receiving loop, under an arbitrary schedule of polls, clock advances and receipts; tokio's channel, `sleep`, `interval_at` and `select!` are trusted as described in Model/Timers.lean | invariants by induction over schedules: per task (count, next due time) with a record of all sends; progress by a second invariant bounding the due time from above |
| C129, C130 | parser/mod.rs, selectors.rs, values.rs, units.rs: the whole stylesheet parser after the text passes of C34/C35, on lists of characters; nom's combinators are modelled by their documented behaviour, alternation and repetition with a count that is proved to suffice (`rule_enough`, `manyQ_eq`). `char::is_whitespace`, `is_alphanumeric`, `to_lowercase`, the named colours and the insides of `rgb()`/`hsl()` are parameters; recursion depth (stack) is not modelled | Spec/Sheet.lean and Spec/Values.lean are an independent grammar (inductive predicates relating rules and texts, unbounded); induction over derivations shows that the parser returns the rules of every derivation, hence also that the grammar is unambiguous |
| C131 | The whole stylesheet parser (as C129, C130), with the one slice that can panic (color.rs, `rgb`/`hsl`) as an explicit outcome | Every parser leaves an end of its input (`Sub`), and a panic of any of them comes from a colour word inside the input (`Calm`), by induction over the recursion of rules; then which colour words panic |
| C132-C134 | svg.rs: the runs of text and background of each row, the table of colours and its classes, escaping; the document as rules, rectangles and texts with positions in cells (the fixed parts of the document and the multiplication by the size of a cell are left out). The order of the hash map is a parameter | A viewer (Spec/Svg.lean) that draws symbols one after the other and takes colours from the rules; induction over rows of whole characters with the run as invariant; the table invariant (names number the entries) gives distinct names, hence one sorted order |
| C135 | canvas.rs `to_ansi_snapshot` as a list of control sequences and texts | A terminal with a pen (Spec/Svg.lean); induction over rows |
| C136–C139 | widget/placeholder.rs: word wrap, the drawing calls of `render` over the canvas of C04/C39, automatic size, palette counter, mouse; texts are lists of graphemes, white space is a parameter, the filler text is a parameter (its words are) | loop invariants of the wrap; every drawing call changes only cells of a range, the block is centred; blending of opaque colours; induction over creations and histories |
| C140–C142 | widget/header.rs, widget/label.rs, widget/ruler.rs: title text over the markup model of C52–C57, icon mouse handling, classes over the class model | a literal text lexes to text tokens only; simulation with the hand of C118–C120; counting a class along the calls |
| C143 | drawing of ruler.rs, loading_indicator.rs, scrollbar_corner.rs over the canvas; the 1 as the cell width of `•`, `·` and the braille frames is trusted (unicode-width) | induction over the lines, each drawing changes only its own cells; induction over calls |
| C144–C146 | `collect_default_css`, `build_combined_css` (lib.rs:115-150) for every enumeration of the set; the stylesheet as made from the first tree and kept through rebuilds (lib.rs:703-709, 751-790); parsing as in C129–C130, cascade as in C31 | the combined text is in the grammar when its parts are, so its rules are those of the parts in order; the deciding rule is found by induction on the rules, and shown to decide under every order unless two texts clash |
| C147 | which `Declaration` each property becomes (parser/mod.rs:189-381, Model/Declare.lean), then flattening and cascade. `Spec/Properties.lean` lists the parts of a style each property is about and what value a part gets | every declaration writes exactly the parts of its property (91 cases, each by computation for all values), every value in the grammar has a declaration, then C129, C130 and the winner theorem of C31 |
| C148, C149 | tcss types/theme.rs: the table of variables (`generate`) for every conversion to Lab; the names documented and used are listed in Spec/Theme.lean | the names of the table do not depend on the theme; two tables agree entry by entry outside the names after the colour |
| C150 | to_lab, from_lab, darken, lighten (types/color.rs) over the real numbers (Model/Lab.lean; the code has `f64`) | conversion there and back is the identity in exact arithmetic up to the two truncations; inequalities over ℝ for pure red |
| C151 | contrast colours of types/theme.rs and types/color.rs over exact fractions | linear arithmetic on brightness |
| C152, C153 | parse_rgb_func, parse_hsl_func, hsl_to_rgb (types/color.rs; Model/ColorFn.lean); reading a fraction (`str::parse::<f32>`) and the table of names are parameters | sector by sector against the CSS formula (Spec/Hsl.lean); splitting a joined text gives the parts back |
| C154 | WidgetTree::query, DOMQuery (tree.rs; Model/Query.lean on Model/Tree.lean); a filter is a test of what the widget answers | by C72's walks with the test of the query; two filters and the two-part selector refuted |
| C155 | calculate_intrinsic_size, desired_size (container.rs; Model/Intrinsic.lean) with the layouts of Model/Layout; children sized in cells or by content, box-sizing border-box, whole margins | the running sums of the size equal the margin space of the layout (induction over the children); four counterexamples |
| C156 | compute_child_placements, render_keylines, render (grid.rs; Model/GridWidget.lean) with compute_track_info, the grid layout (Model/Grid) and the line canvas (Model/Keyline) | `picture`: line positions are increasing, each child lies strictly between the lines of its span, its cells have it as occupant (from the proofs of C47 and C86); then by bands between lines; four counterexamples |
| C157 | on_mouse, on_mouse_with_sender (grid.rs, item_grid.rs; Model/GridWidget.lean); pointer coordinates are u16 | the layout is the one drawn when the inner area is the whole; one counterexample |
| C158 | ScrollBar: on_mouse, update, set_hover, set_active, clear_hover (widget/scrollbar.rs; Model/ScrollBarWidget.lean); colours and styles left out | one step decides who holds, then induction over the history; the drag formula inverts the thumb formula exactly over the rationals; four counterexamples |
| C159 | the setting calls of `Widget` for 25 kinds of widget: static_widget.rs, label.rs, button.rs, input.rs, option_list.rs, switch.rs, header.rs, containers, macros.rs (Model/Settings.lean); `dirty` and builders left out | agreement with a reference answer kept by every call, case by case, then induction over the calls; for every other pair of widget and setting a call that is lost |
| C160 | `Center`, `Middle` (containers.rs:80-365; Model/Centre.lean) | integer arithmetic on the area given to the child |
| C161, C162 | `on_mouse`, `on_mouse_with_sender` along a tree with arbitrary routing; `AppWidget` and the mouse branch of the event loop (Model/Sender.lean); state changes inside widgets left out | recursion over the tree against an inductive "makes"; induction over the layers |
| C58 | the field writes of `apply_declaration` for every declaration of the model | case split over the declaration table, then fold over the surrounding declarations |
| C18 | thumb_bounds over Rat | ordered-field reasoning |
| C19 | quad combine | algebra; order and repetition of set operations |
| C20–C22 | horizontal arrange over Int/Fraction | induction on children |
| C23 | vertical arrange over Rat | induction on children |
| C42 | horizontal arrange, carried remainder | floor of partial sums, induction on children |
| C43, C44 | both arranges | case analysis / exact sums; both false in corners (witnesses) |
| C24, C45 | grid placement | characterisation of the search (first fit), induction on children |
| C25 | track sizes over Fraction/Rat | prefix sums with carried remainder |
| C46, C47 | cell regions, keyline occupancy | tracks in a chain; the two placement loops agree |
| C26, C27 | docking, content region, alignment | maxima over edges, bounding box; list induction |
| C28, C49 | layers (hash map order a parameter) | permutation lemmas; false in corners (witnesses) |
| C48, C50, C51 | arrange_children over the three layouts | permutation, invariance of each layout under removed children/offsets |
| C29, C30 | matches_complex against a declarative relation | induction on parts/ancestors; completeness false in general (witness) |
| C31, C32 | compute_style | sorting lemmas, fold; C32 false (witness) |
| C33 | flatten | induction on the rule tree |
| C34, C35 | strip_comments, resolve_variables over List Char | induction on the text |
| C39 | Canvas put_str | induction on the text |
| C40, C41 | keyline canvas, line drawing, glyph table | characterisation of every arm of every cell; glyphs against Unicode names |
| C36–C38 | colours | round trip, rational bounds; C38 false (witness) |
| C163, C164 | `apply_text_opacity`, `apply_hatch`, `apply_tint` and where `Static` applies them (Model/Fade.lean); a blank is a grapheme that is one space | induction over the segments, stated on the columns of the line; channel mixes from the C37 lemmas |
| C165, C166 | `Color::parse`, `to_rgb` and both name tables, `Content::from_markup` (Model/FromMarkup.lean); the division into graphemes is a parameter | the tables compared by kernel evaluation, the readers by cases on the text; the styles of covering spans by induction over the spans and over the text |
| C167, C168, C169 | the two providers, how the palette asks them, `dispatch_action` and the default commands (Model/Provider.lean) | rows as pieces of markup (Lemmas/Pieces.lean); the score of the exact title bounds all others (jumps, word starts); the whole palette through `results_exact` of C80, which now also keeps the order of each provider's hits |
| C170, C171 | `Model/Ui.lean`: tokens → description (parse.rs) → code (codegen.rs) → widgets; reading an expression and running it are parameters | `Props/Ui.lean`: soundness against a grammar given as an inductive relation and a direct meaning of descriptions (`Spec/Ui.lean`), by induction over steps and trees; completeness for written trees |
| C172 | `Model/BarColours.lean`: `ScrollbarStyle`'s colours and the bars of scrolling containers, screens and plain containers along a history of mouse events | `Props/BarColours.lean`: an invariant over the history, against `Spec/BarColours.lean`, which reads from the events which bar is held and which is under the pointer; counterexamples for releases elsewhere and plain containers |
| C173 | `Model/Disabled.lean`: the controls that can be disabled (models of C76, C96, C118–C120, C141) under one set of user acts | `Props/Disabled.lean`: case analysis over controls and events, induction over histories; counterexamples for links and hidden switches |
| C174 | `Model/Nest.lean`: trees of the containers of C106, C109 and C113, with leaves for the widgets; the areas each leaf is clipped to and the leaves given a mouse event | `Props/Nest.lean`: induction over the tree with the one-level theorems at each container; counterexample for borders of plain containers; `Props/Asked.lean`: overlapping children of a plain container are asked in order up to the first that answers; `Props/NestOnce.lean`: the widget gets the event exactly once |
| C175 | `Model/Theme.lean`, `Model/Lab.lean` (reals) | `Props/Given.lean` `shades_lightness`: the variable of each shade in the generated map, unfolded to one change of lightness |
| C176 | `Model/SwitchFace.lean`: the text of a switch and its drawing on the canvas, over the switch of `Model/Press.lean` | `Props/SwitchFace.lean`: induction over histories for the flags, then the cells written by `put_str` |
| C177 | `Model/Frame.lean`: all canvas calls of a frame of a tree of containers (`calls`, `frame`), the drawing of the widgets left open | Induction over the tree: drawing reads and writes each cell on its own (`draws_agree`), children not under the cell leave it alone (`Inside`), so the frame's calls agree at the cell with those of the path to the widget (`cell_of_seen`); with C174 (`cell_of_reached_partial`) and C07 (`terminal_of_reached_partial`). `lines_inside`: widgets that draw lines as wide as their region satisfy `Inside` |
| C178 | `Model/Lines.lean`: what `render_strip` reads of a line (`Strip.toDraw`), the drawing calls of a text widget with hatch and tint (`Static.paint`) | Induction over segments and rows: each column of a row of one-column characters becomes the cell `drawnOn` says (`segs_drawn`, `rows_drawn`); every operation from the wrapped text to the finished row keeps characters one column wide (`Lemmas/Made.lean`, `wrapFull_one`); with C90, C91 and C97 the place of each character (`text_on_canvas_partial`). `paint_inside` gives the hypothesis of C177 for text widgets. `Props/OnScreenWide.lean` and `Props/LinesWide.lean` are the same for characters of any width but none: each column of a glyph the canvas has room for becomes the cell `columnOn` says, and every operation from the text to the row keeps `Columns` |
| C179 | `Model/ScrollSize.lean`: the sums of `ScrollableContainer::calculate_intrinsic_size` with checked `u16` additions, `desired_size`, and the children as the content of `Model/Scroller.lean` | `Props/ScrollSize.lean`: induction over the loop, then the ends of all placements in the area (as in C155) bound the virtual size, so the first round of the scrollbar loop finds no bars; `Props/Asked.lean`: the same for the size asked for under a declared width and height |
| C180 | `Model/Face.lean`: `get_meta`/`get_state` of 25 kinds of widgets (layered as in the code: inner widget's description, renamed, re-marked), `type_name`, `id`, `is_focused`, the calls `set_focus`, `set_hover`, `set_active`, `clear_hover`, a new style, and the name taken from a Rust type; settings from `Model/Settings.lean`, matching from `Model/Css.lean`. Mouse events that set the marks are not part of it. | `Props/Face.lean`: case analysis over kinds for the description, induction over histories for what persists; `simple_name` by induction over the path. |
| C181 | `Model/Frame.lean` (tree of containers), `Model/Lines.lean` (text widgets) | `Props/InTree.lean`: drawing a tree is balanced in clips (`calls_balanced`); a tree drawn elsewhere leaves a cell alone (`untouched`, induction over the tree); at most one child shows at a place (`shown_unique`, from C174); so the cell of a widget that shows is the one it drew (`kept`, `widget_on_top_partial`). With C178 and C06: each character is on the canvas and on the terminal (`text_in_tree_partial`). `Props/InTreeWide.lean` has the same for characters of any width but none, with the wide versions of C178 and C06 (`text_in_tree_wide_partial`). Partial: containers of C174 that draw nothing on their children; text that fits. |
| C182 | `Model/Dividers.lean`, `Model/GridWidget.lean` (`dividers`, `rowLines`): lines of plain containers beside the children as drawn | `Props/Dividers.lean`: `dividers_mem` (where lines stand) and `table_drawn` (C40, C41: a cell shows a line just if its column or row has one) give `pane_drawn`; from it `around`, `clear_partial`, `separate_partial`. `row_spaced`, `column_spaced`: margins of one cell give the room these need, from C21-C23. Partial: false when scrolled and without margins. |
| C183 | `Model/Bars.lean`: the drawing calls of `render_vertical`, `render_horizontal` on the canvas model, and `compose_colors` | `Props/Bars.lean`: one line of cells after the other, each shown as `Scrollbar.renderVertical`/`renderHorizontal` (C18) say; then the eighths of C18 |
| C184 | `Model/Bars.lean`: chrome, bars and corner of the containers of C174 as drawing calls (`paintOf`) | `Props/Tidy.lean`: a bar draws in its region only, which the content area of C102, C107, C112 leaves free; chrome by the lines of C86; induction over the tree gives `Tidy`, and C181 applies |
| C185 | as C184, plain containers with bars | the flags the bars are drawn with are among those the area was made for; counterexample with `overflow-x: auto` |
| C186 | `Model/Typed.lean`: the typed search, the default `type_name`, the library's types with their names and `as_any_mut`, `screen_mut`. Rust's downcast is comparison of type names with parameters; `std::any::type_name` is the path of the type as rustc writes it (trusted). | `Spec/Typed.lean` says what the first wanted widget is and that only it changes; mutual induction over tree and list of children. Names: induction over the module path. |
| C187 | `Model/Life.lean`: the tasks that `open`, `close`, typing and `set_providers` spawn, with the provider's lock, aborts and an arbitrary scheduler as part of the input. tokio is trusted to give a lock to one task at a time and to end an aborted task at some time. | `Spec/Life.lean` is the automaton off/on. Invariant: calls made followed by calls still to be made are accepted and lead to on exactly if the palette is open with that provider; for other schedules the counts. |
| C188 | `Model/LayoutTypes.lean`, `Horizontal`, `Vertical`, `Grid`, `Arrange` (layouts); `Spec/Units.lean` (`Scalar.meant`: what a number with a unit means) | Unfolding the layouts at one child: carried remainders and cumulative floors keep every size within a cell of the length meant. False for several units in columns, rows and grids (counterexamples); all units for widths in rows and for absolute children. |
| C189 | `Model/Look.lean`: the styles of text and labels; `Model/Static.lean`, `Model/RenderCache.lean`, `Model/Lines.lean` as before | `Lemmas/Dressed.lean`: a predicate on the styles of a line goes through cropping, joining, aligning, wrapping and the render cache (`Dressed.rows`, for any predicate); `Props/Covers.lean` takes it to be an opaque background, one background, or one style; an opaque character replaces its cell (`drawnOn_opaque`), and C178, C181 and C06 bring it to the terminal |
| C190 | `Model/Wrap.lean`: the 62 methods of the `Widget` trait with their default bodies as small programs of calls (depth at most three, proved in `depth_le`), a widget as any table of methods over any state, a wrapper as lists of methods that are passed on unchanged and of methods answered from its own fields; the lists of nine wrappers and five inner widgets are read off the `impl` blocks. What the inner widget does is left open | `behaves`: by induction over all histories of calls, a wrapper answers every call not in `differs` as the inner widget that got the calls passed on; per widget the `differs` list is explicit and the check of the table is a case split over the methods (which is all of them). Assumption named in the statement: `id`, `desired_size` and `is_focusable` of the inner widget change nothing (`&self` in Rust). C159 has the settings of all kinds of widgets |
| C191 | `Model/Pick.lean`: an option list over the container that draws its options; every refresh makes the container forget its layout and position | `history_rest`: without the wheel the container stays at the top through every history; `place_plain`: in the vertical layout the n-th option starts at the sum of the lines before it; with `click_exact` of C79 this gives `click_picks_partial`. `option_rows`: an unwrapped option takes one row per line. All options that end within the height are drawn whole, as the container is neither scrolled nor narrower than the layout (`draw_all`, `Props/PickSeen.lean`) |
| C192 | `Model/Typing.lean`: the markup of an input (C77) read by `fromMarkup` (C166), cut into lines by the text widget (C66) and painted (C178) | `display_exact` now also says that nothing typed becomes a link; `one_row`: a text that fits is one line with all its characters in their styles, without wrapping or without blanks; `annotated_at` gives the style at each place; with C178 this gives the cells of the canvas, `typed_seen_partial` |
| C193 | `Model/Snapshot.lean`: `row_str`, `get_char`, `has_bg_at`, `to_snapshot` over the canvas model; white space of `trim_end` is a parameter | invariant over call histories (every cell reads as one character), exact effect of a text on cells, splitting and trimming of lines |
| C194 | `Model/Keys.lean`: the key branch of the event loop, with the calls it makes as parameters, default `on_key`/quit flag, an input with the focus | trace of who gets the key; induction over histories; refinement to the editor of C76 for typing |
| C195 | Model/Picture.lean: the tree and the rules of `render_to_canvas` and of the first frame, on top of Model/Cascade.lean and Model/Restyle.lean. Not modelled: breakpoints of the application (a hypothesis says the two screens are alike), `on_mount`, and drawing, which is a function of the styled widgets. | Props/Picture.lean: rules that touch no place of interest may be left out of a sheet (`computeStyle_filter`, the sort is stable under removal and renumbering), an ancestor no selector part matches and the focus make no difference, a simulation between the two walks through the tree; counterexamples by evaluation |
| C196 | Model/Clicks.lean: the mouse branch of the run loop for the trees of Model/Nest.lean with the buttons of Model/Press.lean at the leaves. Each event brings its own tree, as layout and scrolling may change between events. Not modelled: an open command palette, hover. | Props/Clicks.lean: by C174 an event reaches exactly the button seen under the pointer; a button given the same event twice answers once (`again`); by induction over the history a button is active exactly if it is held (`after_facts`), which gives when a message or an action is handled (`message_partial`, `action_partial`) and the click (`click_partial`). |
| C197 | Model/Tabs.lean: the key branch of Model/Keys.lean with the focus and the cached path of Model/Tree.lean, and the fall-back of the focus before each frame. Widgets and program are arbitrary functions of their own state; one instance is a program of buttons. Not modelled here: the palette, trees that change between keys. | Props/Tabs.lean: invariant `Ready` (the cached path is the place of the focus index in the ring), index modulo the length of the ring as an integer sum of +1 and -1 (`keys_partial`); then the buttons (`enter_partial`, `usable_partial`). |
| C198 | `Model/Canvas.lean` (canvas.rs:204-373); specification `Put.leaves`, `Put.Glass`, `Op.Misses` in `Props/Painted.lean` | Induction over the characters of a call, whose cells are apart; induction over the calls after it with the invariant of C05 (sizes and clips) |
| C199 | `Model/Markup.lean` (tag.rs:40-113, lexer.rs, parser/markup.rs), `Model/FromMarkup.lean` (content.rs:105-127), `Model/Content.lean`, `Model/Static.lean` (static_widget.rs:392-431) | Calculation with the lexer on escaped text and a balanced tag (`info_scope`); every character of every wrapped line has the style and links of a place of the text where it stands (`Lemmas/Sewn.lean`, induction over wrapping, cropping and ranges); with C96 for the mouse; `Props/LinkWide.lean` has the mouse part for characters of any width but none |
| C200 | `Model/Hidden.lean`: the calls of a tree (`Model/Frame.lean`) without those that widgets hidden by their style leave out | `hidden_unseen`: induction over the tree, only balanced clips are left. `hiding_elsewhere`: both frames are run side by side, the cell stays equal through every call; with C181 for widgets in hidden containers |
| C201 | Mouse events for a tree of texts with links: drawing takes down the links, the event reaches the leaves (`Model/Nest.lean`), pending actions are taken after each event (`Model/LinkClicks.lean`) | C174 gives the one text reached and its region, which is the region of the drawing, so its links are those drawn (`ready`); induction over the history keeps that no action waits (`after_idle`); with C96 the link is that of the column, with C178 and C181 the column is on the canvas (`press_on_screen_partial`); for characters of any width but none in `Props/LinkWide.lean` (`press_on_screen_wide_partial`) |
| C202 | The positions of all containers of a tree before and after a turn of the wheel (`Model/Wheel.lean`, on `Model/Nest.lean`) | Each kind of container either uses the turn and asks no child or keeps its position and hands it on (`pane_turn`, `screen_turn`, C110), and of children that do not overlap one is at the pointer: induction over the tree (`one_moves_partial`). If the containers around do not scroll, the turn gets to the container drawn at the pointer, by induction over the way to it (`Under`), and moves it by one or three rows (`wheel_moves_partial`) |
| C203 | The focus of `Model/Tabs.lean` on the drawing of `Model/Nest.lean`; a path of child numbers names the same widget in both trees | A container whose children fit draws all of them where the layout puts them, as its position is clamped to the start (`roomy_shown`); by induction over the tree every widget Tab visits is drawn and no area cuts it (`ring_painted`), and after any keys the focus is on one of those (C197: `focus_seen_partial`, `used_seen_partial`) |
| C204 | `Model/Form.lean`: the keyboard of `Model/Tabs.lean` for widgets with a state each, such as the inputs of `Model/Input.lean` | What each widget gets is the subsequence of the keys pressed while it had the focus, read off from the moves of the focus alone (`taken`): induction over the keys with C197 (`own_keys_partial`), refinement to the editor of C76 (`edited_partial`); the keys of a list of texts with Tab between them (`filled_partial`, `form_partial`) |
| C205 | `Model/Pointer.lean`: the mouse branch of the run loop as in `Model/Clicks.lean`, with the clearing of all hover before a move | `Props/Pointer.lean`: an event that is no move keeps hover (case split over `on_mouse`, induction over the leaves reached); a move clears all and C174 says that only the button seen under the pointer gets it; induction over the history. `told_same`: a simulation up to hover and the redraw flag shows that the program is told the same as in C196; `Model/HoverTold.lean`, `Props/HoverTold.lean`: `set_hover(true)` is called only for the widget seen under the pointer if no screen is inside a container (`Nest.told_seen_partial`) |
| C206 | `Model/Toggles.lean`: the mouse branch of the run loop for a tree (`Model/Nest`) with switches (`Model/Press`) as leaves, with `clear_all_hover` before moves, which also ends presses | `Props/Toggles.lean`: C174 says which leaf is reached; invariant over histories: a switch is pressed just if it is held (pressed, no move and no release over it since); from it when it answers and changes, and by induction over a count of clicks its value |
| C207 | `Model/Placeholders.lean`: the mouse branch of the run loop for a tree (`Model/Nest`) with placeholders (`Model/Placeholder`) as leaves | `Props/Placeholders.lean`: `seen_once_partial` of C174 gives that the placeholder is told once, so it moves on by one; induction over a count of presses, with C139 for what is shown |
| C208 | `Model/Options.lean`: mouse events, drawings and operations for a tree (`Model/Nest`) with option lists (`Model/Pick`) as leaves | `Props/Options.lean`: invariant over histories without the wheel (each list is made by operations, its container is at rest and remembers its own layout), C174 gives the list reached and its region (`seen_once_partial`), C191 the option (`Pick.click_at_rest`) |
| C209 | `Model/Isolation.lean`: the mouse branch of the run loop over a tree whose leaves are widgets of any kinds, `on_mouse` and `clear_hover` being parameters | `Props/Isolation.lean`: refinement of the tree to each widget alone (`own`, `alone`), by induction over the history, from `Nest.seen_once_partial` and `Nest.reached_seen_partial`; independence of the other widgets follows |
| C210 | `Model/Session.lean`: the run loop with the keys of `Model/Tabs.lean` and the mouse events of `Model/Isolation.lean` in any order; widgets of any kinds as a parameter | `Props/Session.lean`: refinement to each widget alone by induction over the history, with the invariant `Tabs.Ready` for the focus and `Isolation.step_own` for the mouse (`isolated_partial`); the place of the focus is told by the keys (`focus_partial`); for inputs it gives C204 with mouse events between the keys (`Session.edited_partial`) |

## Disagreements between code and property

Each has a witness theorem named `*_counterexample`; the property is then proved with the exception excluded
(`*_partial`).

* **C01** `scroll_up`/`scroll_down`/`scroll_left`/`scroll_right` clamp only one side (scroll.rs:96-113), so a
  negative amount leaves the content.
* **C05** `Canvas::new` and `put_*` compute `width * height` and indices in `u16` (canvas.rs); a canvas of 65536
  or more cells panics in a debug build and allocates too few cells in a release build.
* **C06** A frame that holds half of a wide glyph (overwritten lead or continuation cell) is not reproduced by a
  terminal: the terminal erases the other half.
* **C08–C11** `Segment::split_at` gives a wide grapheme that straddles the cut wholly to the left part
  (segment.rs:264-273): `crop(0,1)` of a wide grapheme has two columns, and `divide` through one repeats columns.
* **C13** (not part of the claim) `simplify` drops segment metadata.
* **C38** `RgbaColor::parse("rgb)(")` slices a string with start after end and panics.
* **C30** `matches_complex` is greedy: a descendant step takes the nearest ancestor that fits and never tries
  another one (cascade.rs). `A > B C` misses `A > B > B > C`-like trees.
* **C31** `text-style`, `border-title-style` and `border-subtitle-style` are merged by turning attributes on
  (cascade.rs:275-604): a stronger rule cannot turn off what a weaker one turned on. `!important` is ignored.
* **C32** `compute_style` takes the specificity of the first selector of a list that matches, not of the strongest
  (cascade.rs:231-273).
* **C33** `combine_selectors` looks for `&` only in the first compound (flatten.rs:89-112); in `.x & {..}` the `&`
  stays in the selector and never matches.
* **C18** `thumb_bounds` gives no thumb when `virtual_size == size` (scrollbar.rs:333) while callers show the bar whenever
  content exceeds the window: content exactly as long as the track gives an empty thumb.
* **C40** A box one cell wide or high gets corners whose arms point at nothing (keyline_canvas.rs).
* **C41** Six entries of the box drawing table hold the glyph of another arm combination (box_drawing.rs); none is
  reachable from boxes and tables of one line style.
* **C35** Every line whose first non-blank is `$` is dropped (variables.rs:79-82), also a line that continues a
  declaration (`color:` / `$c;`) or holds a rule after a definition. Values naming other variables are inserted
  unresolved.
* **C43** Margins are subtracted from a stretched child after its min-height was applied (horizontal.rs:283-311,
  vertical.rs:261-269), so the child ends up lower than its minimum.
* **C44** `VerticalLayout` takes the space for `fr` children from the viewport height (vertical.rs:166) and subtracts
  the margins of stretched children twice; containers lower than the viewport overflow, margins leave a gap.
* **C25** `auto` tracks beside `fr` tracks get no share but a minimum of 1, so the grid overflows; more tracks than
  cells overflow; weights are cut to thousandths each (grid.rs:193-236).
* **C45** `row_count` divides the number of children by the columns and ignores spans (grid.rs:124-132); children
  that no longer fit are silently not shown.
* **C46** The height of a grid child is not limited to its cell (grid.rs:724-733); the width is.
* **C28** A layer declared twice in `layers` is drawn twice (mod.rs:839-843).
* **C49** Layers that the parent does not declare are painted in `HashMap` order (mod.rs:832-836): with two of them the
  stacking changes between runs.
* **C50** `arrange_children_with_pre_layout` (mod.rs:360-446) does not take absolute children out of the flow.
* **C15** Offsets are positions in the lower-cased candidate (fuzzy.rs:27-38); where lower-casing changes the number
  of characters (`İ`) they are shifted and `highlight` marks the wrong characters.
* **C16** The scan for the i-th query letter stops i characters before the end (fuzzy.rs:47-61): `ab` is not found in
  `a.b`.
* **C55** Spans are recorded when a tag closes, so inner spans come first and outer ones override their colours
  (markup.rs:108-116, 153-162): in `[red]a[blue]b[/][/]` the `b` is red.
* **C56** `Color::parse_hex` tests the length in bytes and unwraps characters (color.rs:55-75): `[#abcdé]` panics.
* **C57** `pop_style_matching` (parser/markup.rs:156-173) closes every open tag when none matches; `entry_matches` also
  finds the name as the beginning of a later word, so `[/re]` closes `[bold red]`.
* **C59** `wrap_line_with_spans` (content.rs:648-735) emits a word longer than the width unbroken (683-699) and counts
  every gap as one column although it draws the whole gap, so content with markup overflows.
* **C60** A word of width zero leaves `current_width` at 0, so the next word overwrites or drops it (content.rs:573-626).
* **C61** A line of blanks has no words and yields no line at all in wrap mode (content.rs:538-559): paragraphs with
  indented empty lines lose them, and `height()` disagrees with the number of wrapped lines.
* **C63, C66** `Strip::crop` keeps a wide character that the cut goes through, so truncated or folded lines are one
  column too wide.
* **C67** The underline of a hovered link is taken from the link styles alone (content.rs:455-463), the text's own
  underline is lost.
* **C68** `clear_focus` of the containers skips children that do not participate in the layout (container.rs:1579-1585):
  hide the focused widget, move the focus, show the widget again, and two widgets are focused.
* **C70** `find_focus_path_recursive` (tree.rs:528-554) counts hidden widgets, `focus_nth` does not: with a hidden button
  in front, keys go to the hidden button. `update_focus` (tree.rs:171-182) keeps the cached path when the index is
  unchanged: if the widget at index 0 becomes disabled, the fallback of the event loop (lib.rs:792-801) focuses the
  next widget but the keys still go to the disabled one.
* **C71** `Center` and `Middle` test `is_visible` only (containers.rs:179-197), the search by id tests
  `participates_in_layout`: behind a child with `display: none` the wrong widget is focused.
* **C73** `Screen::handle_message` (screen.rs:1164-1171) and `AppWidget::handle_message` (app_widget.rs:219-225) forward
  the message to their children instead of handling it: a handler runs up to three times for one message, and widgets
  that are not ancestors are asked.
* **C75** `+` and `,` are separators and have no names, so no binding reaches these keys; Shift+Tab arrives as BackTab,
  which `shift+tab` does not match (lib.rs:199-224). A second key name in a chord silently replaces the first.
* **C76** After an insertion the cursor moves one grapheme (input.rs `insert_char`); a combining character joins the
  grapheme before it, so the cursor jumps over the next one. Modifiers are not looked at: Ctrl+A types an `a`.
* **C79** `set_items` (option_list.rs:137-149) does not clear `pending_selection`: a click that is not taken before the
  options are replaced reports an index of the old options, possibly out of range.
* **C80** `close_with_selected` (command_palette.rs:1037-1054) does not start a new generation: answers that are already
  in the channel fill the list of the closed palette, which shows them when it is opened again.
* **C81** `start_search` (command_palette.rs:1100-1165) resets `selected` without updating the list widget: until the
  first answer the old row is still highlighted, but Enter runs the first one.
* **C85** In `apply_update` (command_palette.rs:1212-1236) a late last answer is flushed, with `show_busy` still set, before
  `show_busy` is cleared; the second flush then has nothing to do and does not refresh. The same happens if the last
  answer is empty and hits have been shown. The indicator stays on until the next search.
* **C86** After a command is chosen the remaining answers of the search are still counted; the last one finds no entries
  and a query (the text of the command), and the list is opened with "No matches found" (command_palette.rs:1238-1240).
* **C87** `Center` and `Middle` (containers.rs) do not implement `set_style`/`get_style`. When a widget below them is
  restyled alone, it inherits from a default style: its inherited text colour and visibility are lost.
* **C87** `Container::get_meta` names the layout the container had before it was styled, so a rule `Horizontal { … }`
  reaches a container made horizontal by the stylesheet only at its second styling.
* **C87** The inherent `Static::add_class` (static_widget.rs:165-167) shadows the trait method and does not mark the widget
  dirty: the class has no effect until something else does.
* **C89** `StyleOverride::apply_to` sets the colour but leaves `auto_color`, so an inline colour on a widget whose colour is
  `auto` (for example every `Placeholder`, `color: $text`) is never painted.
* **C90** A widget one column wide with side borders is drawn two columns wide; padding is drawn in full however narrow
  the widget is (render_cache.rs:424-451, 556-602); `render_label_in_row` (border_render.rs:82-184) draws at least four
  columns.
* **C92** With a bottom border and no top border, a widget one row high shows the bottom border instead of the title.
* **C93** `render_line` returns the labelled middle row without `apply_outline` (render_cache.rs:391-405).
* **C94** `RenderCache::new` takes the characters of all edges from `border.top.kind` (render_cache.rs:79): `border-left:
  heavy` alone draws a blank column, and a heavy bottom below a round top is drawn round.
* **C95** `StyleKey` (border_box.rs:25-39) ignores the alpha value (and the ANSI index), but the remembered box contains
  it: a translucent border is drawn in whichever alpha came first in the process.
* **C96** `Static::render` records the regions of links one row too high if a title is shown between side borders without
  a top border: the row is reserved in drawing but not in the regions (static_widget.rs, `links_row_counterexample`).
  Observed in the code, not stated as a property: a disabled static still takes clicks on its links.
* **C100** `intrinsic_height_for_width` does not count the row a title takes between side borders, so the last line of
  text is lost; it counts rows for `vkey` edges that draw nothing.
* **C101** `desired_size` measures the text with its markup tags, so `[b]x[/b]` is given eight columns.
* **C102** `compute_scroll_layout` (scrollable.rs:495-548) stops after three rounds. If a child gets less tall in a narrower
  area the flags alternate; the flags returned then belong to a different layout than the placements, and the bar is
  drawn over the content.
* **C103** A bar wider than the area starts left of it (scrollable.rs:245).
* **C105** `handle_scrollbar_drag` (scrollable.rs:1531-1581) rounds the position down, as does drawing the thumb: a drag
  event without movement scrolls back, and a thumb held by its last cell cannot be dragged to the end within the bar.
* **C106** `on_mouse` lays out with the container's own region as viewport (scrollable.rs:984), `render` with the screen
  (scrollable.rs:678), so `vw`/`vh` children are hit at other places than drawn. Of overlapping children the first gets
  the mouse and the last is drawn on top.
* **C107** `cached_layout` (container.rs:331-376) is forgotten only when the container itself is told of a change: a child
  that changes its own size is drawn at its old place.
* **C108** Nothing changes the horizontal position of a `Container`, and its bars take no mouse events, although a
  horizontal bar is shown (`never_sideways`). The viewport handed to the position is the inner region and not the content
  area when only the horizontal bar is shown (container.rs:849-853), so the last row stays hidden. `render` measures with
  the layout before the bar first (container.rs:818-853) and cuts the position back to it, so text that wraps beside
  the bar can never be read to its end.
* **C109** `on_mouse` lays out in the whole region (container.rs:1475-1501), `render` inside border, padding and bars.
* **C112** `render` (screen.rs:508-553) lays out once more beside the vertical bar but asks for the bars anew afterwards
  (screen.rs:596-597). With `overflow-x: auto` the vertical bar can make the children too wide, and a horizontal bar is drawn over
  their last row; a child that is less tall when narrower leaves room for a bar that is not drawn.
* **C113** `dispatch_mouse_to_children` (screen.rs:203-248) does not scroll docked and absolute children, `render`
  (screen.rs:572-593) does. The area used for the mouse ends below the horizontal bar (screen.rs:791-796).
* **C114** With `overflow-x: auto` the last row stays under the horizontal bar; in an area of one row the wheel, which
  moves three rows, jumps over rows.
* **C115** Buttons, inputs and the header title forward `add_class` to the inherent `Static::add_class`
  (static_widget.rs:165-167), which pushes duplicates and does not mark the widget dirty, not to the one of the trait
  (static_widget.rs:1008-1013). `remove_class` removes only the first of several equal classes.
* **C116** `Button::with_classes` (button.rs:86-89) replaces the classes of variant and style; `set_compact`
  (button.rs:171-181) does not mark the button when it becomes compact.
* **C117** With a stable gutter, plain containers (container.rs:818-936) and screens (screen.rs:508-553) lay the children
  out in the whole region while no bar is needed, but show them beside the gutter.
* **C119** The release of a press is delivered only to the widget under the pointer, so that a widget left during the
  press stays pressed. Moves clear this for switches (switch.rs:374-383) but not for buttons (button.rs:512-517): a press
  begun elsewhere and let go on such a button fires it.
* **C120** Drags neither set nor clear hovering.
* **C121** `run_inner` (lib.rs:648-672) has neither guard nor panic hook: a panic in a handler leaves raw mode, alternate
  screen and mouse capture on; so does a failing command before or after. A failing cleanup also replaces the loop's error.
* **C122** A key redraws only if Tab moved the focus, a message only if the palette changed (lib.rs:866-949, 1098-1107):
  a switch toggled with the space bar is drawn as before until the next mouse event, although it marks itself dirty.
* **C123** The documentation suggests returning `true` from `needs_recompose` (lib.rs:548-550). Then each key, click and
  tick rebuilds the tree: Tab does not move the focus and the palette closes at once.
* **C124** A click does not cancel a pending tooltip (lib.rs:1078-1085 acts only on a visible one).
* **C125** The tooltip is placed below the mouse without regard to the screen (lib.rs:836-845): not drawn in the last row,
  cut at the right.
* **C128** `select!` picks any ready branch (context.rs:150-163), so an interval task that runs late may send all ticks due
  even after it was cancelled. And the documentation's examples (context.rs:213, lib.rs:529) drop the handle at once, so
  that their interval never ticks (`dropped_never_sends`). A zero period panics inside the task.
* **C129** An unknown property is skipped up to the next `;` in the whole rest of the text (mod.rs:409-413), so
  `Button { foo: bar } Label { color: red; }` loses the rule for `Label` without an error. A block that begins with `&`, `.`
  or `#` and has a mistake inside is skipped as an unknown declaration (mod.rs:177-183): the nested rule is lost silently.
* **C130** `margin: 1 2 3` is read as `margin: 1 2` (units.rs:92-110). `red!important`, `bold !important` (text styles) and
  `keyline: none !important` are errors that reject the whole stylesheet; `layers: a !important` has two layers.
* **C131** `A { color: rgb)(; }` panics: the first `)` is before the first `(` and the slice between them is taken without a
  check (color.rs:529-540, 560-571).
* **C132** `SvgRenderer::write_text` flushes a run when the style changes, and the end of a row counts as an unstyled cell
  (svg.rs:275-280): text without colour and attributes at the end of a row, such as a whole row of it, is not written.
  `dim` and `reverse` are not written (svg.rs:292-302). The title given to `to_svg` (canvas.rs:715-731) is never used, nor
  are `SvgConfig::background` and `window_chrome`.
* **C135** `to_ansi_snapshot` writes a blank for the second cell of a wide character (canvas.rs:691-695), so the rest of
  the line is moved by one column when viewed in a terminal.
* **C136** A line of a label that holds only spaces vanishes when wrapped, while an empty line stays (`word_wrap`).
* **C137** A label of more lines than its area is drawn over the rows below (placeholder.rs:462-472 has no limit), the size
  text runs past the right edge of a narrow area, and the filler text of a one-cell area is drawn diagonally outside it
  (`.max(1)` after the margin, placeholder.rs:374-378). The automatic height of the filler variant leaves out its margin.
* **C138** Translucent backgrounds are painted twice under the text (placeholder.rs:358-362, then `put_str` with the
  background), so text sits on a darker patch.
* **C139** The library never resets the palette counter (only tests do), so a rebuild changes the colours (unless the number of placeholders is a
  multiple of twelve). Any mouse button cycles the variant.
* **C140** Titles are read as markup (header.rs `format_title`): `[red] alert` is shown as ` alert`, `Step [1/3]` with a
  subtitle shows the tags `[dim]— …[/]` themselves, and `[#abcdé]` panics. `HeaderTitle` does not forward
  `take_pending_action`, so links in titles do nothing.
* **C141** A press on the icon that is released elsewhere leaves it active (`clear_hover`, header.rs:532-537, does not
  clear it, and releases outside are not delivered); dragging onto the icon later and releasing opens the palette.
* **C142** `with_tall(true).with_classes(..)` loses `-tall`, and `set_tall(true)` does not bring it back; a second
  `with_variant` of a label keeps the class of the first; `with_classes` after it drops the class.
* **C143** A spinner does not look at the size of its area (loading_indicator.rs:81-94) and draws over its neighbour
  when it has none.
* **C144** "order doesn't matter" (lib.rs:137) is not so: `OptionList { height: auto }` and `Container { height: 1fr }` both match
  an option list with the strength of one type name (its `type_names` have `Container`), and a `HashSet` is walked in a random
  order. An application with an option list in a container has it at its own height in one run and filling the screen in the
  next. The same with horizontal and vertical scrolls beside a `ScrollableContainer` (`layout`, `overflow`).
* **C145** Default styles are only put first, not made weaker (lib.rs:130-132 says so): `Header { height: 5; }` of an
  application does not change a tall header, because `Header.-tall` is more specific; the same for hover and focus rules.
* **C146** The stylesheet is made once (lib.rs:707) and used for all later trees: a type of widget that first appears in a
  rebuild has none of its default styles.
* **C150** Also the colours given pass the Lab conversion with an amount of 0 and truncation of each channel: a theme with
  `error` pure red shows #fe0000 (or a channel one step darker for other colours).
* **C151** Without a `foreground` a theme takes the inverse of its background: on #808080 text is #7f7f7f.
* **C152** A hue is wrapped by one turn only (`hue_to_rgb`): `hsl(720, 100%, 50%)` is black instead of red.
* **C153** The opacity in `rgb(1, 2, 3, 5)` is taken as it is and not limited to 1.
* **C154** `filter` overwrites an earlier filter (tree.rs:907): `.filter(a).filter(b)` is `.filter(b)`. The
  documented `query("#items Label")` (tree.rs:393) is read as the id `items Label` and finds nothing.
* **C155** A container with automatic height counts the rows of a text before it is wrapped; minimal sizes of
  children are not counted; a grid asks for the size of its largest child; no child counts for more than 1000 cells
  (container.rs:557-566).
* **C156** Grid lines without gutters are drawn over the children; `align` moves the children over the frame, since
  it works with the whole area (grid.rs:117); plain containers do not leave room for their lines at all
  (container.rs:403-424).
* **C157** `Grid::on_mouse` and `ItemGrid::on_mouse` lay out over the whole region, drawing over the inner one
  (grid.rs:374, 405): with a border or padding clicks near the edge of a child reach its neighbour.
* **C158** `ScrollBar::on_mouse` ignores a release beside the bar (widget/scrollbar.rs:221-228): it stays held and later
  drags scroll. `grabbed_position` is stored and never read, so holding the thumb still scrolls; positions asked for
  are not limited to the content; the thumb's minimal length is left out of the drag formula.
* **C159** `set_visible` and `set_loading` do something only in `Switch`, `LoadingIndicator` (visible) and the palette
  (visible); buttons, labels, statics and containers inherit the empty default (widget.rs:358, 368), so
  `query("Button").set_visible(false)` (tree.rs:1034) has no effect. `Vertical`, `Horizontal` (macros.rs),
  `VerticalScroll`, `HorizontalScroll`, `Grid`, `ItemGrid`, `Screen` and `Switch` do not implement the class calls, nor
  `Vertical` and `Horizontal` the border titles, although their `with_classes` and `with_border_title` exist; a button
  or label has no tooltip; containers and option lists cannot be disabled.
* **C160** The child of `Center` or `Middle` gets its desired size even if it is larger than the area
  (containers.rs:119-129, 261-271); a child that fills the space is 65535 cells wide. `is_visible` is tested instead of
  `participates_in_layout`, so that `display: none` has no effect.
* **C161** `Center` and `Middle` do not implement `on_mouse_with_sender`: the message of a button inside names the
  `Center`, without id, if it was clicked, and the button if it was pressed with a key (tree.rs:211-221).
* **C162** `AppWidget` asks `child.blocks_mouse_events()` of a `Box<dyn Widget>` (app_widget.rs:169, 186); the
  implementation of `Widget` for boxes (widget.rs:576-795) does not forward it, nor `set_focus`, `is_focused`,
  `tooltip`, `set_tooltip` and the inline style, so the answer is always no.
* **C163** `apply_text_opacity` with opacity 0 drops the text colour and puts blanks, but keeps underline, strike and
  reverse (strip.rs:130-137): underlined text fades to an underline.
* **C164** `Segment::apply_hatch` recolours the whole segment (segment.rs:377-393), so text that shares its segment
  with a space takes the hatch colour; it decides by `new_text.contains(hatch_char)` (366), so a border edge `│` is
  recoloured by the vertical hatch although no blank was replaced; `cell_length` is kept for a wide hatch character.
* **C165** the eight names `bright_black` … `bright_magenta` are colours in markup (rich color.rs:130-294) and none in a stylesheet (`bright_counterexample`).
* **C166** `convert_rich_style` (content.rs:130-154) has no blink to convert to: text marked `[blink]` is drawn like any other (`blink_counterexample`).
* **C169** the default commands Keys, Maximize, Screenshot and Theme (lib.rs:346-376) name actions that `dispatch_action` (lib.rs:461-506) does not know; choosing them closes the palette and does nothing (`offered_counterexample`).
* **C171** after `..first` the parser of expressions goes on at a second `..` (parse.rs:45-49): two splats in a row become one splat of the range `first..second`, which does not compile for lists of widgets (`splats_counterexample`). A widget or the end must stand between.
* **C172** a scrolling container gets only the events inside its region: if a thumb is released elsewhere the container goes on taking it for held (scrollable.rs:1018-1022), draws it in the active colours, and every later move over the container scrolls it although no button is down (`sticky_counterexample`).
* **C172** a plain container with scrollbars never sets `scrollbar_hover` or `scrollbar_drag`: its bars cannot be dragged and never change colour (`container_counterexample`).
* **C173** `Static::on_mouse` (static_widget.rs:954-990) does not look at `disabled`: links of a disabled text or label can be clicked (`link_counterexample`). `Switch::on_event` (switch.rs:236-252) does not look at `visible`: a hidden switch that has the focus toggles on Enter (`hidden_switch_counterexample`).
- **C174**: inherits the disagreements of C106, C109 and C113 at every level; `Textual.Nest.border_counterexample` shows one in depth: a plain container with a border in a scrolling container gives the press on its first child to the second.
- **C176**: `Switch::render` does not look at the size of its area (switch.rs:163-208); in a narrower area it draws over its neighbours as far as the clip allows (`Textual.Press.narrow_counterexample`).
- **C177**: a widget that draws beyond its region (switch in an area of less than ten columns) overwrites its neighbour, which still gets the clicks (`Textual.Nest.beyond_counterexample`).
- **C178**: `put_grapheme` writes a character of width 0 into a cell of its own and the next character over it; at the end of a line it stays, one cell beyond the line (`Textual.Static.beyond_line_counterexample`).
- C179: `ScrollableContainer` counts the margin before the first child twice (once as overlap with nothing, once at the end), so a row (or column) of that size stays empty after the last child; `Container` does not. It does not ask for the room of a stable gutter, which makes a horizontal bar appear. A grid asks for the largest child only. The sums are plain `u16` additions: two children of 40000 rows overflow.
- C180: `has_class` is the default (always false) in `Vertical`, `Horizontal`, `VerticalScroll`, `HorizontalScroll` and `Screen`, although selectors see their classes (`class_counterexample`). A `Container` answers to the type selectors `Vertical`/`Horizontal` according to the style last applied, so restyling changes which selectors match it (`names_counterexample`). `clear_hover` also ends `:active` for a `Switch` but not for a `Button` or a `HeaderIcon` (`clear_hover_counterexample`). `:hover` rules for any other widget (for example `Input:hover`, `OptionList:hover`) never apply (`never_counterexample`). The simple name of a type declared inside a generic implementation is empty (`simple_name_counterexample`).
**C182, lines of a scrolled container.** `Container::render` moves the children by the scroll offset but hands the places before scrolling to `render_keylines` (container.rs:940), so in a scrolled container the lines go through the children (`scrolled_counterexample`). Without margins the lines replace the first column or row of each child but the first and the outermost cells of all (`touching_counterexample`).
- **C184**: a container narrower than its vertical bar draws the bar over its own left edge and padding (`Textual.Bars.narrow_counterexample`, scrollable.rs:232-250).
- **C185**: `Container::render` (container.rs:855-989) makes the area for the children before it lays them out beside the vertical bar, and asks again whether to draw the horizontal bar afterwards: a child that fits the container but not beside the bar gets a horizontal bar drawn over its last visible row (`Textual.Bars.pane_cover_counterexample`).
- C186: `query_one_as` gives nothing for `VerticalScroll`, `HorizontalScroll`, `ScrollableContainer`, `Grid`, `ItemGrid`, `Vertical`, `Horizontal`, `Center`, `Middle`, `Placeholder` and `AppWidget`, which do not override `as_any_mut` (`scroller_counterexample`). It goes on searching after a widget of another type although its documentation says it returns None (`goes_on_counterexample`). A `Box<dyn Widget>` used as a widget goes by the name `Widget` (`boxed_counterexample`). `collect_pending_actions` is documented to traverse the tree and looks at the root only (`pending_counterexample`); the event loop uses `collect_pending_actions_mut`.
- C187: startup and the first search are two independent tasks; on the multi-threaded runtime that `run` creates the search may get the lock first (`early_counterexample`). `app.command_palette` calls `set_providers` also while the palette is open, which starts the new providers and never shuts the old ones down (`replaced_counterexample`).
**C188**: `width: 20vw` (also `vh`, `w`, `h`) in a column or grid is 20 cells (size_resolver.rs:138-155 passes other units on as a number); `height: 10vh` in a row is 10 cells (horizontal.rs:226-253), in a grid a tenth of the cell (size_resolver.rs:164-177); `height: 10w` in a column is taken from the screen, not the container (vertical.rs:193-222), contrary to the documentation of `Unit` (tcss/src/types/geometry.rs:13-33). `box-sizing: content-box` is ignored by columns (except heights in cells) and grids. In a row a height in cells is reduced by the margins, in a column it is not. A grid ignores `min-width`, `max-width`, `min-height`, `max-height`.
- C189: a title or subtitle that does not fit a widget of six or seven columns is cut to an ellipsis without a style, through which the background behind the widget shows (`narrow_label_counterexample`; render_cache.rs:490-496 takes the style of the last segment of the crop, which has none). At `opacity: 50%` the text is on a background faded into what is behind it, but titles are on the unfaded `background` (`faded_label_counterexample`; static_widget.rs:569-624 fades the colour only).
C190: `set_tooltip` on a `Label` is lost, and so is the tooltip of a `Static` in it (label.rs forwards neither; `label_tooltip_counterexample`). An action link clicked in a `HeaderTitle` is stored in the inner static and never taken, as `take_pending_action` is not passed on (`title_link_counterexample`). A `Header` says it has no children and nothing that takes the focus (`header_children_counterexample`), though `for_each_child` visits them. `add_class` on a `VerticalScroll` or `HorizontalScroll` does nothing (`scroll_class_counterexample`).
- C191: `border_counterexample`: the row of the click is counted from the outer edge of the list, so with `border-top` (the command palette's own list has `border-top: blank`) the click picks the option below. `wheel_counterexample`: it also ignores the scroll position. `fold_counterexample`: with the default styles an option longer than the list is wide is folded over two rows but counted as one. `hidden_selection_counterexample`: moving the selection rebuilds the options, which scrolls back to the top, and nothing scrolls to the selected one.
- C190: `height_counterexample`: the command palette's list, input and icon and the clock of the header do not pass on the question for their height at a width, so they answer with the default instead of the inner widget's answer.
* C192: inputs keep the default `text-wrap: wrap`. Word wrapping ends a line with its last word, so the cursor behind the end of the text (where it is while typing) is never drawn (`Typing.cursor_counterexample`), nor is it in an empty input (`empty_counterexample`). Without the focus several blanks are drawn as one (`blanks_counterexample`), and a long word with the cursor in it is not broken, so its end is cut off (`long_counterexample`). Option lists and headers set `nowrap`; inputs do not.
* C193: `to_snapshot` writes a blank for the second column of a wide character, so `日本` is found as `日 本` (`Snapshot.wide_counterexample`); a grapheme of several characters shifts the columns of its line (`cluster_counterexample`).
* C06: also `flush_patched_counterexample` (a wide glyph without background drawn over two backgrounds: the canvas keeps two, a terminal shows one) and `flush_tint_counterexample` (a translucent blank over the second column of a wide glyph recolours a cell that is never sent).
* C194: the default `on_key` gets every key the focused widget has got, so typing a word with `q` into an input ends the program (`Keys.quit_counterexample`); `KeyEventKind` is not looked at, so on terminals that report releases every key acts twice (`release_counterexample`); widgets get the key code without the modifiers, so Ctrl+C types a `c` (`ctrl_counterexample`).
- C195: a picture of the test helper differs from the first frame of the program: `testing::build_combined_css` leaves out `base_widget_css`, so scrollbars and links have no colours from the theme (`Picture.scrollbar_counterexample`); there is no `App` above the screen, so rules such as `App Label` do not apply (`Picture.ancestor_counterexample`) and a translucent screen is laid over nothing (`Picture.behind_counterexample`); nothing has the focus, so `:focus` rules do not apply (`Picture.focus_counterexample`).
- C196: a button keeps a press that ends elsewhere. After press on A and release on B, a press on B and release on A sends the message of A, though A was not clicked. In a plain container with a border the click goes to the button drawn one row lower (C174).
- C197: with a button that is not visible in front of the others, Tab visits the right buttons, but Enter sends the message of another one, the hidden one (as in C70).
- **C178/C198.** A character without columns (a zero-width space, a lone combining mark) is written to the cell behind the character before it (canvas.rs:295-310 writes the first cell whatever the width) and erases what was there; the next character of the same text is then written over it, so only the last one is lost to view (`draw_exact_counterexample`). A wide character with one column outside the canvas or the clip is not drawn at all and the cell inside keeps what it showed (`half_glyph_counterexample`).
- **C199.** The tag lexer does not know quotes: `[@click=f(']')]x[/]` has the action `f('` and shows `')]x`; escaping the bracket keeps the backslash in the action, so an action with a single bracket cannot be written (parser/lexer.rs:88-116; `bracket_counterexample`). An address that ends with a quote loses it (parser/tag.rs:86-91; `quote_counterexample`).
- **C81.** The list of the palette is hidden with `visibility: hidden`, which does not keep the mouse away: when a provider answers after a command was chosen, a click where nothing is drawn replaces the chosen command (option_list.rs:338-367, command_palette.rs:1547-1568; `hidden_click_counterexample`).
- **C200.** No widget looks at `visibility` in `on_mouse`, `on_event` or `is_focusable`: a hidden button is clicked and gets the focus by Tab (button.rs:467-500, 529-531; `hidden_button_counterexample`). A text hidden after it was drawn keeps the links of its last drawing, and they answer clicks (static_widget.rs:460-462; `hidden_link_counterexample`). A screen with `visibility: hidden` is drawn (screen.rs:497-503; `screen_counterexample`).
- **C201.** As for C174, a plain container with a border tells its children regions without the border: a press on the plain lower row of a text follows the link in the first row of the text below it (`LinkClicks.border_counterexample`).
- **C202.** A scrolling container never hands the wheel to its children, also if it has nothing to scroll or its axis is hidden: a list in a scrolling container cannot be scrolled with the wheel (scrollable.rs:979-1177; `nested_counterexample`). A plain container with `overflow-y: auto` keeps the wheel whether or not its content fits (container.rs:1456-1471; `auto_counterexample`). Containers return nothing when they scroll, so all containers that overlap at the pointer are moved by one turn (`overlap_moves_counterexample`). Plain containers do not look at Shift (`shift_counterexample`).
- C203: moving the focus (lib.rs:893, 898) scrolls nothing. In a container with more children than it shows at once Tab moves the focus to a button that is not drawn, and Enter presses it (`Nest.below_counterexample`).
- C204: as the cached focus path counts inputs with `display: none` (C70), what is typed goes into an input that is not displayed while another one has the focus and its look (`Form.display_counterexample`).
* **C205**: the hover is only brought up to date by moves. When the wheel moves the content under the pointer, the button that was there stays hovered and the one now there is not (`wheel_counterexample`). Buttons in a plain container with a border are hit one row too high, so the wrong one is hovered (`hover_border_counterexample`).
* **C206**: a press that ends elsewhere is remembered until the next move without a button, so that a release over the switch after a press somewhere else turns it over (`stale_counterexample`). All mouse buttons work, also a press with one and a release with another (`buttons_counterexample`). In a plain container with a border the wrong switch is hit (`border_counterexample`).
- **C207.** A plain container hands a press to all children at the pointer until one answers, and placeholders never answer: a press on two placeholders over each other changes both (`overlap_counterexample`). Every mouse button counts (`buttons_counterexample`). In a plain container with a border the wrong placeholder changes, as in C174 (`border_counterexample`).
- **C208.** An option list looks only at the release of the left button: a press on another widget and a release over the list picks an option (`Options.release_counterexample`). The counterexamples of C191 also hold in a tree.
- **C209.** In a plain container with a border the events for the widget seen at the pointer go to a neighbour (`Isolation.border_counterexample`). A `Screen` put inside a container hands `set_hover` on to all its children (screen.rs:1136-1144), so moving over one of them hovers all (`Nest.told_screen_counterexample`).
- **C210.** The mouse branch of the run loop (lib.rs:962-1011) never moves the focus: after a click on a button or an input the keys still go to the widget that had the focus before (`Session.click_focus_counterexample`).
