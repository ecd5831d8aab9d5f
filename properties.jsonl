{"id": "C01", "title": "Drawn primitives are returned complete and in drawing order", "statement": "If a page is drawn with any number of text, rectangle and line calls on a render device, the list of grobs handed back to R contains exactly one grob per call, in call order, however often the internal buffer had to be enlarged on the way, and no write ever lands outside the buffer.", "quantifier": "for every finite sequence of draw calls (any length, any mixture), and every point at which the device is released", "why_tests_cant": "A test draws some fixed number of objects; the buffer-growing code runs at sizes 5, 10, 20, ... and the claim is about all lengths.", "anchors": ["src/render_device.c: rdev_new, rdev_grow_grobs, rdev_add_SEXP, rdev_release"]}
{"id": "C02", "title": "Reported bounding box is the smallest box around everything recorded", "statement": "After any sequence of recorded boxes the extent returned to R contains every recorded box, is contained in every rectangle that contains them all, does not depend on the order of recording, and is absent exactly if nothing was recorded.", "quantifier": "for every sequence of recorded boxes with arbitrary coordinates (including degenerate and negative ones)", "why_tests_cant": "Extremal and order-independence statements quantify over all sequences.", "anchors": ["src/render_device.c: rdev_record_bbox, rdev_release", "src/sinab/src/graphics_engine/renderer.rs: RenderDevice::record_bbox"]}
{"id": "C03", "title": "Colour strings round-trip", "statement": "The colour string passed to the R graphics engine for an RGBA colour decodes to the same four components, so two different colours never produce the same string; the alpha suffix is left out exactly for fully opaque colours; the string always fits the fixed-size buffer it is copied to.", "quantifier": "for all 2^32 combinations of red, green, blue, alpha", "why_tests_cant": "2^32 inputs; injectivity concerns pairs of inputs.", "anchors": ["src/sinab/src/primitives.rs: impl Display for RGBA", "src/gcontext.c: gcontext_set_color"]}
{"id": "C04", "title": "Font face reflects both slant and weight, independent of setting order", "statement": "On a fresh graphics context, after any sequence of font-style, font-weight and other settings, the face number given to R is 1 plain, 2 bold, 3 italic, 4 bold italic, where italic means that some italic or oblique style was set and bold that bold was set; so the order of setting style and weight does not matter and unrelated setters do not disturb it. The font built from a computed style has the face of that style.", "quantifier": "for every sequence of setter calls starting from a fresh graphics context", "why_tests_cant": "Histories of setter calls are unbounded; tests cover a few orders.", "anchors": ["src/sinab/src/graphics_engine/renderer.rs: set_fontface, set_fontstyle, set_fontweight, get_fontface"]}
{"id": "C05", "title": "Changing a shared graphics context never affects other holders", "statement": "When a graphics context has been cloned (for example into a text segment), changing a setting through one handle changes what that handle draws with and leaves every other handle as it was.", "quantifier": "for every sequence of clone, drop and set operations over any number of handles", "why_tests_cant": "Aliasing bugs depend on the history of clones and drops.", "anchors": ["src/sinab/src/graphics_engine/renderer.rs: GContext, Deref/DerefMut, Clone", "src/sinab/src/graphics_engine/font.rs: Font"]}
{"id": "C06", "title": "Graphics-context strings never overflow their buffers", "statement": "Whatever font family name or colour the style sheet asks for, copying it to the C graphics context writes only inside the 201-byte buffers.", "quantifier": "for every font family name", "why_tests_cant": "The failure needs an over-long name; tests use short ones and a one-byte overflow usually goes unnoticed.", "anchors": ["src/gcontext.c: gcontext_set_fontfamily, gcontext_set_color", "src/renderer.h", "src/sinab/src/graphics_engine/font.rs"]}
{"id": "C07", "title": "Physical and flow-relative geometry agree", "statement": "Converting physical sizes and sides to flow-relative ones loses nothing: the size conversion is undone by its inverse, the four sides are permuted and none duplicated or dropped, inline sides are exactly the ones along the inline axis, and for the only writing mode the program uses it is the identity top/right/bottom/left to block-start/inline-end/block-end/inline-start.", "quantifier": "for all writing modes, both directions and all side values", "why_tests_cant": "Parametric in side values and over all mode combinations.", "anchors": ["src/sinab/src/geom.rs: size_to_flow_relative, size_to_physical, to_flow_relative, to_physical"]}
{"id": "C08", "title": "Box-model rectangles nest and have the right size", "statement": "Padding box, border box and margin box of a fragment are obtained from the content box by growing each side by exactly the corresponding width; with non-negative widths each contains the previous one, and the outer size is content plus both sides.", "quantifier": "for every content rectangle and all side widths", "why_tests_cant": "Arithmetic identity over all lengths.", "anchors": ["src/sinab/src/geom.rs: Rect::inflate, Sides::inline_sum, block_sum", "src/sinab/src/layout/fragments.rs: padding_rect, border_rect, margin_rect"]}
{"id": "C09", "title": "The document is always a well-formed tree", "statement": "After any sequence of node creations, appends, insert-befores and removals performed through the tree-building interface (never making a node its own ancestor), the parent, first/last-child and sibling links describe one consistent ordered forest: links are symmetric, every node is in the child list of its parent exactly once, and no node is its own ancestor.", "quantifier": "for every sequence of tree operations of any length", "why_tests_cant": "Invariant over unbounded histories of pointer updates.", "anchors": ["src/sinab/src/dom/mod.rs: push_node, detach, append, insert_before", "src/sinab/src/dom/html.rs: Sink"]}
{"id": "C10", "title": "append / insert-before / remove edit exactly one child list position", "statement": "Appending makes the node the last child of the given parent, inserting before a sibling puts it directly in front of that sibling, removing takes it out; in each case it disappears from its former position, every other node keeps its parent and relative order, and nothing else changes.", "quantifier": "for every well-formed document and every legal pair of nodes", "why_tests_cant": "Depends on all positions of the node and the target (first, middle, last, same parent, adjacent).", "anchors": ["src/sinab/src/dom/mod.rs: detach, append, insert_before"]}
{"id": "C11", "title": "Whole-document iteration is document order", "statement": "Iterating over the nodes of a document ends, and yields every node reachable from the document node exactly once, parents before children and earlier siblings (with all their descendants) before later ones.", "quantifier": "for every well-formed document", "why_tests_cant": "Statement about trees of any shape and depth; includes termination.", "anchors": ["src/sinab/src/dom/mod.rs: node_and_following_siblings, node_and_ancestors, next_in_tree_order, nodes"]}
{"id": "C12", "title": "Text pieces delivered separately form one text node", "statement": "However the parser splits a stretch of character data, adding the pieces one after the other to an element leaves a single text node whose content is the concatenation; adding text never creates two neighbouring text nodes where there was none and never changes an element.", "quantifier": "for every document and every way of splitting a text", "why_tests_cant": "All splittings of all texts at all tree positions.", "anchors": ["src/sinab/src/dom/html.rs: append_common, append, append_before_sibling"]}
{"id": "C13", "title": "Later duplicate tags never overwrite attributes", "statement": "When attributes are merged to an existing element, attributes already present keep their values and order, missing ones are added once with the given value, and no name occurs twice.", "quantifier": "for all attribute lists", "why_tests_cant": "Quantifies over all pairs of attribute lists.", "anchors": ["src/sinab/src/dom/html.rs: add_attrs_if_missing", "src/sinab/src/dom/mod.rs: get_attr"]}
{"id": "C14", "title": "Reparenting moves all children", "statement": "Asking the tree builder to move the children of one node to another leaves the first without children and appends all of them, in order, to the second.", "quantifier": "for every well-formed document and every pair of nodes", "why_tests_cant": "Needs misnested markup with several children; also about all child counts.", "anchors": ["src/sinab/src/dom/html.rs: reparent_children"]}
{"id": "C15", "title": "Which style sheets apply, and in what order", "statement": "The author style consists of the css argument given by the caller followed by the text of exactly those style elements whose type attribute is absent or equals text/css in any letter case, in the order they were created; each contributes the concatenation of its text children.", "quantifier": "for every document and css text", "why_tests_cant": "Combines filters and ordering over all documents.", "anchors": ["src/sinab/src/dom/mod.rs: parse_stylesheets, child_text_content", "src/sinab/src/dom/html.rs: create_element"]}
{"id": "C16", "title": "A bad declaration is dropped and changes nothing else", "statement": "A declaration with an unknown property or a value that does not match the grammar of its property is ignored and all other declarations of the block keep their effect; reading a block never aborts.", "quantifier": "for every sequence of declarations, malformed in any way", "why_tests_cant": "The space of malformed values is unbounded.", "anchors": ["src/sinab/src/style/declaration_block.rs: DeclarationBlock::parse, DeclarationParser::parse_value"]}
{"id": "C17", "title": "Four-sides shorthands follow the 1-to-4 value rule", "statement": "margin, padding, border-width, border-style, border-color with one to four values set all four sides: one value all, two vertical/horizontal, three top/horizontal/bottom, four top/right/bottom/left.", "quantifier": "for all value lists of length one to four and any parser of a single side", "why_tests_cant": "Parametric in the values.", "anchors": ["src/sinab/src/style/values/generic.rs: FourSides", "src/sinab/src/style/properties/definitions.rs"]}
{"id": "C18", "title": "border shorthands accept their parts in any order and reset what is missing", "statement": "border and border-side accept width, style and colour in any order, each at most once and at least one; parts left out are set to their initial value; border sets all four sides to the same triple.", "quantifier": "for every non-empty selection of parts in every order with all values", "why_tests_cant": "All permutations with all values.", "anchors": ["src/sinab/src/style/values/border.rs: BorderSide::parse, parse_one_or_more", "src/sinab/src/style/properties/definitions.rs"]}
{"id": "C19", "title": "Lengths use the CSS unit ratios", "statement": "1in = 96px = 2.54cm = 25.4mm = 72pt = 6pc, unit names in any letter case, unitless numbers only if zero; em is relative to a font size; conversion is linear; non-negative contexts reject negative lengths.", "quantifier": "for all numeric values and all units", "why_tests_cant": "Linear laws over all values.", "anchors": ["src/sinab/src/style/values/length.rs: SpecifiedLength::parse, FromSpecified"]}
{"id": "C20", "title": "Every documented property name is recognised", "statement": "Each property name listed in the documentation of supported CSS (including the four border-side-color longhands) in any letter case selects its property.", "quantifier": "for every documented name in every capitalisation", "why_tests_cant": "A misspelled table entry is only found by a test that uses that very name.", "anchors": ["src/sinab/src/style/properties/definitions.rs", "src/sinab/src/style/properties/macros.rs", "vignettes/supported_CSS.Rmd"]}
{"id": "C21", "title": "!important can be put on any declaration", "statement": "If a declaration is valid then the same declaration followed by !important is valid, sets the same values, and takes part in the important phase only.", "quantifier": "for every property and every valid value", "why_tests_cant": "Quantifies over all properties and values.", "anchors": ["src/sinab/src/style/declaration_block.rs: parse_value", "src/sinab/src/style/values/fontfamily.rs"]}
{"id": "C22", "title": "initial and inherit work for every property", "statement": "For every property and shorthand, initial gives the initial value and inherit the parent value (initial at the root); unset means inherit for inherited properties and initial otherwise.", "quantifier": "for every property, parent style and position in the cascade", "why_tests_cant": "All properties with all parent styles.", "anchors": ["src/sinab/src/style/properties/macros.rs: CssWideKeyword handling", "src/sinab/src/style/values/mod.rs: CssWideKeyword"]}
{"id": "C23", "title": "Cascade winner", "statement": "The value of each longhand of an element is determined by the last applicable declaration in this order: user-agent normal, author normal, author important, user-agent important; within one origin by increasing specificity, then order of appearance, with the style attribute last; no other declaration has influence.", "quantifier": "for all rule sets, all elements, all properties", "why_tests_cant": "Total order over arbitrary rule sets.", "anchors": ["src/sinab/src/style/cascade.rs: StyleSetBuilder::finish, push_matching, MatchingDeclarations::cascade, style_for_element", "src/sinab/src/style/declaration_block.rs: cascade"]}
{"id": "C24", "title": "Rules keep source order among equal specificity", "statement": "Preparing a rule set keeps every (selector, block) pair, sorts by specificity, and pairs of equal specificity stay in order of appearance; a selector list counts as one rule per selector.", "quantifier": "for every sequence of style sheets", "why_tests_cant": "Stable-sort claim over all rule lists.", "anchors": ["src/sinab/src/style/cascade.rs: add_stylesheet, finish"]}
{"id": "C25", "title": "Skipping empty phases is unobservable", "statement": "The shortcut which skips a block that has no normal (or no important) declarations never changes the computed style.", "quantifier": "for every declaration block that can be produced by the parser, and every cascade phase", "why_tests_cant": "The flags are maintained by the parser; the claim is an invariant of all parses.", "anchors": ["src/sinab/src/style/declaration_block.rs: any_normal, any_important, cascade"]}
{"id": "C26", "title": "em lengths do not depend on declaration order", "statement": "Lengths in em resolve against the final font size of the same element wherever font-size is declared, and font-size in em resolves against the font size of the parent.", "quantifier": "for all declaration blocks and all permutations that keep the relative order of declarations of the same property", "why_tests_cant": "All permutations of all blocks.", "anchors": ["src/sinab/src/style/properties/macros.rs: if_early_cascade_into, if_late_cascade_into, ComputedValues::new", "src/sinab/src/style/values/fonts.rs", "src/sinab/src/style/values/length.rs"]}
{"id": "C27", "title": "Inheritance of undeclared properties", "statement": "A property with no applicable declaration takes the parent value if it is one of the inherited properties (font, line-height, colour, text) and its initial value otherwise; anonymous boxes behave like elements without declarations.", "quantifier": "for every property, parent style and set of matching rules", "why_tests_cant": "Quantifies over all parents and all rule sets.", "anchors": ["src/sinab/src/style/properties/macros.rs: ComputedValues::new", "src/sinab/src/style/properties/mod.rs: anonymous_inheriting_from"]}
{"id": "C28", "title": "Computed display and border width are consistent", "statement": "A side without border style has computed border width zero; floating or absolutely positioned elements are block-level with an independent formatting context; the computed display of an element is never an unsupported combination, so box construction does not hit its unsupported-display abort.", "quantifier": "for every element and every style sheet", "why_tests_cant": "Reachability over all cascades.", "anchors": ["src/sinab/src/style/properties/mod.rs: post_cascade_fixups", "src/sinab/src/style/values/border.rs: fixup", "src/sinab/src/style/values/box_.rs: Display::fixup, blockify", "src/sinab/src/layout/flow/construct.rs: handle_element, handle_inline_level_element"]}
{"id": "C29", "title": "Class selectors see every class of an element", "statement": "A class selector matches an element exactly if the name is one of the whitespace-separated words of its class attribute.", "quantifier": "for every class attribute value and class name", "why_tests_cant": "The suite uses only single-class attributes.", "anchors": ["src/sinab/src/style/selectors.rs: has_class"]}
{"id": "C30", "title": "Keywords are case-insensitive", "statement": "Property keywords, units and property names can be written in any letter case with the same effect.", "quantifier": "for every keyword and capitalisation", "why_tests_cant": "All capitalisations of all keywords.", "anchors": ["src/sinab/sinab-derive/src/style.rs: Parse", "src/sinab/src/style/values/box_.rs: Display::parse", "src/sinab/src/style/values/length.rs"]}
{"id": "C31", "title": "Structural navigation used by selectors skips non-elements", "statement": "Parent, previous and next element as seen by combinators are the nearest elements in the tree (text and comments are skipped), next and previous are mutually inverse, the root is exactly the element without parent element, and :empty holds exactly if there is no element child and no non-empty text child.", "quantifier": "for every well-formed document and element", "why_tests_cant": "All tree shapes.", "anchors": ["src/sinab/src/style/selectors.rs: parent_element, prev_sibling_element, next_sibling_element, is_root, is_empty"]}
{"id": "C32", "title": "Collapsible white space", "statement": "In normal white-space mode each run of space characters within a text becomes one space, leading space is dropped at the start of a line of content or after a space, no two spaces are adjacent afterwards, the sequence of words is unchanged, and collapsing collapsed text changes nothing.", "quantifier": "for every text, split to any number of consecutive pieces", "why_tests_cant": "All strings and all splittings.", "anchors": ["src/sinab/src/layout/flow/construct.rs: handle_text_collapse, handle_leading_whitespace"]}
{"id": "C33", "title": "White space between words survives inline markup", "statement": "If two words are separated by white space in the source they stay separated in the rendered text, whatever inline element boundaries lie between them.", "quantifier": "for every inline content", "why_tests_cant": "Depends on the placement of the space relative to tags and nesting.", "anchors": ["src/sinab/src/layout/flow/construct.rs: handle_leading_whitespace, get_last_text"]}
{"id": "C34", "title": "Preserved white space is kept exactly", "statement": "In pre and pre-wrap modes the text of an element reaches layout character by character unchanged, and text of consecutive nodes is concatenated in order.", "quantifier": "for every text", "why_tests_cant": "All strings.", "anchors": ["src/sinab/src/layout/flow/construct.rs: handle_text_preserve, handle_text"]}
{"id": "C35", "title": "Block containers are homogeneous and keep everything in order", "statement": "The box tree of a block container contains either only block-level boxes or a single inline formatting context; runs of inline content between blocks are wrapped in anonymous blocks; the text and elements appear in document order, none lost or duplicated; no anonymous block is empty.", "quantifier": "for every element content without block-level elements nested in inline elements", "why_tests_cant": "Structural induction over arbitrary content.", "anchors": ["src/sinab/src/layout/flow/construct.rs: BlockContainer::construct, handle_element, end_ongoing_inline_formatting_context"]}
{"id": "C36", "title": "Block inside inline splits the inline", "statement": "A block-level element inside an inline element is laid out as a block between the two halves of the inline element.", "quantifier": "for every nesting of block-level elements in inline elements", "why_tests_cant": "All nestings; the suite has none.", "anchors": ["src/sinab/src/layout/flow/construct.rs: handle_block_level_element, end_ongoing_inline_formatting_context"]}
{"id": "C37", "title": "display:none only removes the subtree", "statement": "An element with display:none (anywhere in the document) is skipped: processing terminates, boxes outside its subtree are untouched, and the rest of the page is rendered as if it was absent.", "quantifier": "for every document and every element position", "why_tests_cant": "Failure depends on the position among siblings of all ancestors and includes non-termination.", "anchors": ["src/sinab/src/layout/dom_traversal.rs: unset_boxes_in_subtree, traverse_element"]}
{"id": "C38", "title": "Every box slot is filled", "statement": "Whenever construction of the box tree completes, each element that generates a box has had its layout-box slot set exactly once, so the drop check of the slot never aborts.", "quantifier": "for every document for which construction completes", "why_tests_cant": "Depends on all code paths of the builder.", "anchors": ["src/sinab/src/layout/dom_traversal.rs: BoxSlot", "src/sinab/src/layout/flow/construct.rs"]}
{"id": "C39", "title": "Block width equation", "statement": "For an in-flow block in a containing block of width W: margin-left + border-left + padding-left + width + padding-right + border-right + margin-right = W after resolution, auto width takes the remaining space, two auto margins are equal.", "quantifier": "for all specified values and all W", "why_tests_cant": "Arithmetic over all combinations of auto and given values.", "anchors": ["src/sinab/src/layout/flow/mod.rs: layout_in_flow_non_replaced_block_level"]}
{"id": "C40", "title": "Margin collapsing algebra", "statement": "The combined size of adjoining margins is the largest positive plus the most negative margin, irrespective of the order or grouping in which they are combined.", "quantifier": "for every finite collection of margins", "why_tests_cant": "Algebraic law over all collections and groupings.", "anchors": ["src/sinab/src/layout/fragments.rs: CollapsedMargin"]}
{"id": "C41", "title": "Siblings are stacked with collapsed margins and nothing overlaps", "statement": "In a block container, the border box of each in-flow child starts where the previous one ended plus the collapsed margin between them (margins of empty children collapse through); the content height is the end of the last child plus, if it cannot collapse with the parent, the last margin; the internal consistency checks never abort.", "quantifier": "for every list of children with all margins, heights and collapse-through flags", "why_tests_cant": "Loop invariant over lists of any length.", "anchors": ["src/sinab/src/layout/flow/mod.rs: layout_block_level_children, place_block_level_fragment"]}
{"id": "C42", "title": "Static-position bookkeeping never goes out of bounds", "statement": "Absolutely positioned boxes found at any depth are associated with an existing in-flow fragment of the container when static positions are adjusted, so the index never fails.", "quantifier": "for every box tree", "why_tests_cant": "Invariant across mutual recursion of arbitrary depth.", "anchors": ["src/sinab/src/layout/positioned.rs: adjust_static_positions", "src/sinab/src/layout/flow/mod.rs: layout_block_level_children, BlockLevelBox::layout"]}
{"id": "C43", "title": "Absolute positioning equation", "statement": "For an absolutely positioned box, in each axis, offset + margins + borders + padding + size add up to the containing block size in that axis, percentages refer to that axis size where CSS says so, and with only one offset given the box is anchored at that side.", "quantifier": "for all specified values and containing block sizes", "why_tests_cant": "All combinations of auto and given values.", "anchors": ["src/sinab/src/layout/positioned.rs: AbsolutelyPositionedFragment::layout, solve_axis"]}
{"id": "C44", "title": "Relative positioning moves a box without affecting others", "statement": "Relative offsets shift the box (start offset wins over end offset, auto is no shift) and leave the position of siblings and the container size as without the offsets.", "quantifier": "for all offsets and all children lists", "why_tests_cant": "Comparison of two layouts for all inputs.", "anchors": ["src/sinab/src/layout/mod.rs: relative_adjustement", "src/sinab/src/layout/flow/mod.rs", "src/sinab/src/layout/flow/inline.rs"]}
{"id": "C45", "title": "Floats without float support do not disturb layout", "statement": "Float bookkeeping (whether a subtree contains floats) has no influence on the resulting fragments.", "quantifier": "for every box tree", "why_tests_cant": "Comparison over all trees.", "anchors": ["src/sinab/src/layout/flow/mod.rs", "src/sinab/src/layout/flow/float.rs"]}
{"id": "C46", "title": "Line breaking terminates and keeps the text", "statement": "Breaking a text run to lines terminates for every measure of text width, and the text on the lines is the text of the run except for the spaces and newlines at which lines were broken: no other character is lost, duplicated or reordered.", "quantifier": "for every text, available width and width measure", "why_tests_cant": "All strings, all font metrics, includes termination.", "anchors": ["src/sinab/src/layout/flow/inline.rs: TextRun::layout_wrap", "src/sinab/src/graphics_engine/shaped_segment.rs"]}
{"id": "C47", "title": "Lines fit whenever they can be broken", "statement": "A line of wrapped text is not wider than the available width unless it contains a single unbreakable word.", "quantifier": "for every text, width and monotone measure", "why_tests_cant": "All strings and metrics.", "anchors": ["src/sinab/src/layout/flow/inline.rs: TextRun::layout_wrap"]}
{"id": "C48", "title": "nowrap text breaks at newlines only", "statement": "Text with white-space nowrap or pre is split exactly at newline characters and all other characters are kept.", "quantifier": "for every text, width and measure", "why_tests_cant": "All strings.", "anchors": ["src/sinab/src/layout/flow/inline.rs: TextRun::layout_nowrap"]}
{"id": "C49", "title": "Measured width is never stale", "statement": "The advance width reported for a text segment is always that of its current text, after any sequence of appending, trimming, saving and restoring.", "quantifier": "for every sequence of segment operations with properly nested save/restore", "why_tests_cant": "Cache coherence over histories.", "anchors": ["src/sinab/src/graphics_engine/shaped_segment.rs"]}
{"id": "C50", "title": "Lines stack without gaps or overlap", "statement": "The line boxes of an inline formatting context start at block position 0, each starts where the previous ends, and the content height is the sum of the line heights; there is one line more than there are line breaks.", "quantifier": "for every inline content", "why_tests_cant": "Loop invariant over all contents and break positions.", "anchors": ["src/sinab/src/layout/flow/inline.rs: InlineFormattingContext::layout, LinesBoxes::finish_line"]}
{"id": "C51", "title": "Text alignment", "statement": "For left, center and right alignment the free space of each line is put at the end, half on both sides, or at the start; the content of the line keeps its internal geometry.", "quantifier": "for every line content and container width", "why_tests_cant": "All widths and contents.", "anchors": ["src/sinab/src/layout/flow/inline.rs: LinesBoxes::finish_line"]}
{"id": "C52", "title": "Inline boxes broken over lines are decorated once per edge", "statement": "When an inline element is spread over several lines, start margin/border/padding appear only on its first fragment and end ones only on its last, every opened box is closed once, and fragments nest like the elements.", "quantifier": "for every nesting of inline elements and all break positions", "why_tests_cant": "Stack discipline over unbounded histories.", "anchors": ["src/sinab/src/layout/flow/inline.rs: InlineBox::start_layout, PartialInlineBoxFragment::finish_layout, finish_line"]}
{"id": "C53", "title": "Items on a line are adjacent and in order", "statement": "On one line, inline items are placed left to right, each starting where the previous one ended, starting at the line start; the used width of the line is where the last one ended.", "quantifier": "for every inline content", "why_tests_cant": "Invariant over all contents.", "anchors": ["src/sinab/src/layout/flow/inline.rs: layout_wrap, layout_nowrap, finish_layout"]}
{"id": "C54", "title": "Vertical alignment shifts accumulate and line boxes enclose their items", "statement": "Baseline, sub, super and length shifts move an inline box relative to its parent, nested shifts add up, and the line box spans from the highest ascent to the lowest descent of everything on the line.", "quantifier": "for every nesting of inline elements", "why_tests_cant": "All nestings and metrics.", "anchors": ["src/sinab/src/layout/flow/inline.rs: calculate_line_ascent_descent, calculate_baseline_shift"]}
{"id": "C55", "title": "Painting order and completeness", "statement": "Painting visits every fragment once, in tree order: a box paints background, then borders, then its content; text is painted once per text fragment with its own colour and font.", "quantifier": "for every fragment tree", "why_tests_cant": "All trees.", "anchors": ["src/sinab/src/paint.rs: Fragment::paint_onto, BoxFragment::paint_onto"]}
{"id": "C56", "title": "Absolute position is the sum of relative offsets", "statement": "Moving the page origin moves every painted primitive and box by the same vector and changes nothing else; each primitive is painted at its own offset plus the offsets of its enclosing fragments.", "quantifier": "for every fragment tree and displacement", "why_tests_cant": "Equivariance over all trees and vectors.", "anchors": ["src/sinab/src/paint.rs", "src/sinab/src/geom.rs: Rect::translate"]}
{"id": "C57", "title": "Only visible decorations are painted, inside the border box", "statement": "Background is painted exactly if its colour is not fully transparent, over the padding and border area; each border edge is painted exactly if it has positive width and a style, centred within its border strip and not extending outside the border box.", "quantifier": "for every box fragment with non-negative widths", "why_tests_cant": "All widths, styles and colours.", "anchors": ["src/sinab/src/paint.rs: BoxFragment::paint_onto"]}
{"id": "C58", "title": "The reported extent contains everything that is painted", "statement": "The overall bounding box contains the margin box of every box and every background and border primitive (for non-negative margins).", "quantifier": "for every fragment tree", "why_tests_cant": "All trees.", "anchors": ["src/sinab/src/paint.rs", "src/render_device.c: rdev_record_bbox"]}
{"id": "C59", "title": "Failures are contained and leave no half-drawn page", "statement": "If parsing, styling or layout aborts for any reason, control returns normally to C and no primitive has been drawn; input that is not valid UTF-8 is treated as empty.", "quantifier": "for every input and every abort point", "why_tests_cant": "Quantifies over all abort points.", "anchors": ["src/sinab/src/test.rs: sinab_test_renderer", "src/sinab/src/paint.rs: render_html", "src/sinab/src/utils/c_helper.rs"]}
{"id": "C60", "title": "Units at the device boundary", "statement": "Page sizes come in inches and are converted to CSS pixels at 96 per inch, drawing coordinates and metrics convert back by the same factor, font sizes convert px to points at 72/96; the two conversions are inverse to each other; the vertical axis is inverted exactly once, preserving distances.", "quantifier": "for all coordinates", "why_tests_cant": "Linear identities over all values.", "anchors": ["src/render_markdown.c", "src/render_device.c", "src/sinab/src/graphics_engine/renderer.rs", "src/sinab/src/graphics_engine/font.rs"]}
{"id": "C61", "title": "Rendered words are the words of the document", "statement": "For inline content without hyphens in overlong words and without the white-space defect above, the words painted, read in painting order, are the words of the document in document order.", "quantifier": "for every document in the stated class, every style, page width and font metric", "why_tests_cant": "End-to-end statement over all documents.", "anchors": ["src/sinab/src/layout/flow/construct.rs", "src/sinab/src/layout/flow/inline.rs", "src/sinab/src/paint.rs"]}
{"id": "C62", "title": "Documented values mean what the documentation says", "statement": "Each value listed in the documentation of supported CSS (keywords, percentages, numbers, quoted family names) is accepted for its property and selects the documented meaning.", "quantifier": "all documented property/keyword pairs, all percentages and numbers", "why_tests_cant": "The values range over all numbers and the colour table is arbitrary; a test suite exercises a few of the pairs.", "anchors": ["src/sinab/src/style/values/", "src/sinab/src/style/properties/definitions.rs"]}
{"id": "C63", "title": "Lines are filled as far as possible", "statement": "Wrapped text is broken before a word only if that word does not fit on the line any more, or at a newline character, or behind a word that alone is wider than the line.", "quantifier": "for every text, width and width measure", "why_tests_cant": "All strings and font metrics; a breaker that breaks too early keeps all text and never overflows, so only a universal statement about every break excludes it.", "anchors": ["src/sinab/src/layout/flow/inline.rs: TextRun::layout_wrap"]}
{"id": "C64", "title": "Text is laid out in its own style", "statement": "Every visible character reaches layout with the computed style of the element that directly contains it, and with the font of that style, in document order.", "quantifier": "for every document, style sheet and element content", "why_tests_cant": "Neighbouring texts are merged to runs depending on arbitrary markup in between; any finite set of documents misses combinations of line breaks, display:contents, hidden and out-of-flow elements.", "anchors": ["src/sinab/src/layout/flow/construct.rs: handle_text_collapse, handle_text_preserve", "src/sinab/src/layout/dom_traversal.rs: traverse_children_of"]}
{"id": "C65", "title": "No text is lost, duplicated or recoloured", "statement": "For every document without floats (absolutely positioned elements allowed), in which no two adjacent pieces of text of one paragraph have different styles (see C37) and hyphens are not in overlong words: the visible characters drawn on the device are exactly the visible characters of the rendered elements. None is lost, none is drawn twice, and each is drawn in the font and the colour of its style.", "quantifier": "for every document in the stated class, every style, page size and font metric", "why_tests_cant": "Multiset equality over all documents, line breakings and positioned boxes.", "anchors": ["src/sinab/src/layout/flow/construct.rs", "src/sinab/src/layout/flow/inline.rs", "src/sinab/src/layout/flow/mod.rs", "src/sinab/src/layout/positioned.rs", "src/sinab/src/paint.rs"]}
{"id": "C66", "title": "The device code uses R's memory correctly", "statement": "For every sequence of calls of the C interface of the render device (create, draw text / rectangle / line, record a bounding box, release) and every moment at which R may collect garbage: no object is used after it has been reclaimed, no list is accessed out of bounds, PROTECT and UNPROTECT are balanced, the device is freed exactly once, and objects preserved for the device are released. The list handed to R consists of exactly the grobs of the calls in order, each the result of the intended call of a grid function with the intended arguments, with class gList and the bounding box as attribute; values the caller had protected keep their contents.", "quantifier": "for every state of R's memory, every schedule of garbage collections, every page height and every sequence of calls", "why_tests_cant": "Garbage collection happens at moments no test controls; a missing PROTECT shows only if a collection happens between two particular allocations.", "anchors": ["src/render_device.c", "src/r_callbacks.c", "src/renderer.h"]}
{"id": "C67", "title": "Selectors select what CSS says", "statement": "For every document the HTML parser can produce, every selector (type, universal, id, class and attribute selectors, :root, :empty, :first-child, :last-child, :only-child, :nth-child(), :nth-last-child(), the -of-type pseudo-classes, :not(), joined by any combinators to any length) and every element: matching gives an answer, and the answer is yes exactly if the element is represented by the selector according to the CSS definition in terms of the tree of elements. (False of the code for the -of-type pseudo-classes, which abort, and for class attributes with several words; proved for all others.)", "quantifier": "for every document, every selector of any length and every element", "why_tests_cant": "Arbitrary trees combined with arbitrarily long selectors with backtracking; each navigation function skips over text and comments in every possible arrangement.", "anchors": ["src/sinab/src/style/selectors.rs", "src/sinab/src/dom/mod.rs"]}
{"id": "C68", "title": "Elements look by default as the built-in style sheet says, and authors override it", "statement": "The built-in style sheet is accepted. For every document, every style sheet of the caller and every element: a property about which neither style sheets nor the style attribute say anything has the value that the table of the HTML specification (as far as implemented) gives to the element; if the table has none, it is inherited or initial. A property about which they say something has the value they say. The two exceptions are <input type=hidden>, which is never displayed, and <br>, which always breaks the line.", "quantifier": "for every document, every author style sheet, every element and every property", "why_tests_cant": "Every element name and attribute combined with every author style sheet, over all properties.", "anchors": ["src/sinab/src/style/user_agent.css", "src/sinab/src/style/cascade.rs", "src/sinab/src/style/selectors.rs"]}
{"id": "C69", "title": "md_to_html() converts the elements of a vector one by one and leaks nothing", "statement": "For every character vector, if the Markdown converter produces text without NUL for each of its elements, md_to_html() returns a character vector of the same length whose i-th element is the HTML of the i-th element (in UTF-8; an element that is not valid UTF-8 gives an empty string), whatever the garbage collector reclaims and whenever it runs. Every C string the Rust side hands out is given back exactly once and never read afterwards, the protection stack is as deep as before, and nothing the caller protects is reclaimed. If the HTML of an element contains a NUL character the call does not return.", "quantifier": "for every character vector, every converter, every initial R heap and every schedule of garbage collections", "why_tests_cant": "All vectors and all points at which R may collect garbage; a missing PROTECT shows up only under unlucky collections.", "anchors": ["src/markdown.c", "src/sinab/src/markdown.rs", "src/sinab/src/utils/c_helper.rs", "R/md-to-html.R"]}
{"id": "C70", "title": "html_grob(): size and position of the text on the page", "statement": "For every region of the page and every HTML grob that can be rendered: the width and height reported to grid are the given ones (resolved relative to the viewport), or the extent of the rendered content if none are given; ascent and descent add up to the height; the content is moved as a whole, so that the point at the fraction hjust of its width and vjust of its height is at (x, y), as documented; x, y, hjust and vjust do not change how it is laid out; missing text is as empty text, plain numbers are measured in the default unit, and x and y default to the top left corner.", "quantifier": "for every parser, viewport tree, text, style sheet, position, size and justification", "why_tests_cant": "All combinations of units, viewports, justification and content.", "anchors": ["R/html_grob.R", "R/grid-utils.R", "R/render-markdown.R"]}
{"id": "C71", "title": "Text is drawn with the font it was measured with, in room of its own size", "statement": "Whatever is rendered, for every text that is drawn there is an element of the document such that the text is drawn in the colour, font family, face and size of the element's computed style; the room recorded for it is exactly as wide as R measures these characters with these graphics parameters and as high as the style's line height, it starts where the text is drawn, and half of the leading is above and half of it below the glyphs.", "quantifier": "for every input text, style sheet, page size and font metrics, and every text that is drawn", "why_tests_cant": "All documents, styles and fonts: a mismatch between the measured and the drawn font shows only for particular style changes, and font metrics are outside of the program.", "anchors": ["src/sinab/src/layout/flow/inline.rs", "src/sinab/src/layout/flow/construct.rs", "src/sinab/src/graphics_engine/font.rs", "src/sinab/src/graphics_engine/shaped_segment.rs", "src/sinab/src/paint.rs"]}
{"id": "C72", "title": "Exactly the supported pages are rendered", "statement": "Take any page whose style sheets and style attributes can be read (no value followed by superfluous tokens, no selector about sibling types) and whose text contains no NUL. It is drawn without an error being reported if and only if (1) the document has exactly one root element and no text beside it, and (2) the root element is hidden or its content is supported: white-space is normal, nowrap, pre or pre-wrap for all text, there are no inline blocks, no in-flow block is inside an inline element, and no displayed element ends with an element that has display:none. Otherwise, whenever control returns, an error has been reported and the device is exactly as before.", "quantifier": "for every document the HTML parser can produce, every readable style sheet, page size, font metrics and device state", "why_tests_cant": "An equivalence over all documents and style sheets: tests can neither show that nothing else fails nor that all unsupported pages fail.", "anchors": ["src/sinab/src/dom/mod.rs: root_element", "src/sinab/src/style/cascade.rs", "src/sinab/src/layout/dom_traversal.rs", "src/sinab/src/layout/flow/construct.rs", "src/sinab/src/layout/flow/root.rs", "src/sinab/src/test.rs"]}
{"id": "C73", "title": "Element names decide whether an ordinary page is rendered", "statement": "With the built-in style sheet, and style sheets and attributes that do not mention display, position, float and white-space, a page (as in C72) is drawn if and only if it has one root element that is invisible by default, or in which no displayed element (other than br) ends with an invisible one (head, script, style, template, ..., an element with the attribute hidden, or a hidden input), and no element that is a block by default (html, body, p, div, pre, blockquote, ...) is a child of a displayed element that is not. In particular a page whose body ends with <script> or <style> is never drawn, and neither is a page with <li><p>, as it results from a Markdown list with blank lines.", "quantifier": "for every document the HTML parser can produce, every style sheet in the stated class, page size, font metrics and device state", "why_tests_cant": "All documents; the failing ones are ordinary pages that the test suite happens not to contain.", "anchors": ["src/sinab/src/style/user_agent.css", "src/sinab/src/style/cascade.rs", "src/sinab/src/layout/dom_traversal.rs", "src/sinab/src/layout/flow/construct.rs", "src/sinab/src/test.rs"]}
{"id": "C74", "title": "Backgrounds and borders drawn are exactly those of the elements", "statement": "For every page that is laid out: of every displayed element that has a box of its own and is not in a float (floats are never laid out), each part of its box is drawn with the element's background colour (unless it is transparent) and with those of its borders that have a style and a positive width, in their colour, width and style; nothing else but text is drawn. A block is in exactly one part. An inline element is in one part, or broken over lines; then its first part has the left border, its last part the right border and all parts the upper and lower borders. In particular: hidden elements, elements with display: contents, anonymous boxes and elements in floats have no decorations; each visible background colour appears; each border with a style and width is drawn; a page without backgrounds and borders consists of text alone.", "quantifier": "for every document the HTML parser can produce, every readable style sheet, page size and font metrics", "why_tests_cant": "All combinations of nesting, display, position, line breaks and border styles: that a decoration is lost or drawn twice shows only for particular ones.", "anchors": ["src/sinab/src/paint.rs", "src/sinab/src/layout/flow/mod.rs", "src/sinab/src/layout/flow/inline.rs", "src/sinab/src/layout/flow/construct.rs", "src/sinab/src/layout/positioned.rs"]}
{"id": "C75", "title": "Texts do not overlap and are drawn in reading order", "statement": "For every page whose elements do not move text (not positioned; blocks without a fixed height; margins, paddings and borders above and below blocks and left and right of inline elements not negative; no text directly in display: contents elements): the texts that are drawn form rows. In each row, every text begins at or to the right of the end of the texts drawn before it; every row is below all rows drawn before it, measured by the line-height of each text around its baseline. So any two texts on the page are apart, and if line-heights are at least the heights of the fonts, no letters overlap. Each text is in the font of the element whose style it has. If nothing floats and there are no hyphens, the rows contain exactly the visible characters of the document, in document order.", "quantifier": "for every document the HTML parser can produce, every readable style sheet, page size and font metrics with text widths that are not negative", "why_tests_cant": "Overlap depends on the nesting, margins that collapse, baselines of different fonts on one line, vertical-align, padding, and on where lines are broken; pictures of examples show one combination each.", "anchors": ["src/sinab/src/layout/flow/inline.rs", "src/sinab/src/layout/flow/mod.rs", "src/sinab/src/layout/flow/construct.rs", "src/sinab/src/paint.rs"]}
{"id": "C76", "title": "Methods found through jump tables are those of the match", "statement": "The enums of CSS properties and declarations read their own memory to choose a function from a table. For every enum that the macro accepts, every variant, every contents of its fields and either byte order: calling a method runs the block written for that variant, with exactly the fields of the value; only bytes of the value are read, at properly aligned addresses, and the table is never indexed outside its bounds. A method compiles only if its arms name every variant once, in the order of the enum, with all fields. Applied to CSS properties: a keyword (inherit, initial, unset) always takes effect on the property that it was written for, and only font-size and color are computed before the others.", "quantifier": "for every enum accepted by the macro, variant, field contents, prior memory contents and byte order", "why_tests_cant": "The project's test has one enum with three variants; a wrong offset or index depends on sizes and alignments of fields, and on the byte order of the machine, and may go unnoticed if neighbouring bytes agree.", "anchors": ["src/sinab/src/utils/tagged_union_with_jump_tables.rs", "src/sinab/src/style/properties/macros.rs", "src/sinab/src/style/properties/definitions.rs"]}
{"id": "C77", "title": "Sharing computed styles in memory is not observable, and nothing leaks", "statement": "Styles share parts of their memory with the style of the parent element and with the initial values until they are changed. For every sequence of computing styles (with any parent that is still in use and any declarations) and letting go of styles: no freed memory is read or written; every style has, as long as it is in use, exactly the values that were computed for it, whatever was computed or freed later; each part in memory is counted as often as it is used; after all styles are gone only the initial values are in memory. A part is shared with the parent (or with the initial values, if it is not inherited) whenever no declaration concerns it; the only exception is the part with the borders, which every style has for itself.", "quantifier": "for every sequence of operations, parent styles and matching declarations", "why_tests_cant": "A write through a shared part would change other elements only for certain orders of computing and freeing styles and certain combinations of declarations; there are unboundedly many.", "anchors": ["src/sinab/src/style/properties/macros.rs", "src/sinab/src/style/properties/mod.rs", "src/sinab/src/style/values/box_.rs"]}
{"id": "C78", "title": "Vertical positions follow the rules for collapsing margins", "statement": "For every page, however deeply nested, the upper and lower edges of all blocks in the flow are those of CSS 2.1 (8.3.1, 10.6.3): going down the page one meets margins and things that keep margins apart (padding, borders, lines of text, given heights); margins that nothing keeps apart take together the largest positive one plus the most negative one, also margins of a block and of the blocks in it, and of empty blocks. Widths and heights are computed from the styles (percentages of the block around); only the heights of lines of text are taken as given. A relatively positioned block is shifted with everything in it and moves nothing else.", "quantifier": "for every tree of boxes, styles, texts, fonts and page size", "why_tests_cant": "Which margins adjoin depends on the nesting of blocks to any depth, on paddings, borders and heights being exactly 0, and on the signs of margins; there are unboundedly many combinations.", "anchors": ["src/sinab/src/layout/flow/mod.rs", "src/sinab/src/layout/fragments.rs", "src/sinab/src/layout/positioned.rs"]}
{"id": "C79", "title": "Horizontal positions and widths of blocks follow from the styles alone", "statement": "For every page, however deeply nested, the left and right edges of all blocks in the flow are those of CSS 2.1 (10.3.3): a block with automatic width fills the block around it, less its margins, borders and paddings; automatic margins of a block with a given width share the room that is left; percentages are of the width of the block around. What the blocks contain has no influence. A relatively positioned block is shifted with everything in it and moves nothing else.", "quantifier": "for every tree of boxes, styles, texts, fonts and page size", "why_tests_cant": "Every edge depends on the widths, margins, borders and paddings of all blocks around, to any depth, each of which can be a length, a percentage or automatic.", "anchors": ["src/sinab/src/layout/flow/mod.rs", "src/sinab/src/layout/positioned.rs"]}
{"id": "C80", "title": "What is added at the end of a document leaves everything before it in place", "statement": "If a document without absolutely positioned elements is extended at its end - further blocks after the last one, further elements or text inside the last element, to any depth, in a way that leaves the styles of what is there unchanged - then every text that was drawn before is drawn in the same place, in the same font and colour, and in the same order, before all new texts. If words are added to the last line (also inside its last inline element, or to its last word), this holds of all texts before that line, in fonts in which a longer text is not narrower. Floats anywhere, and added floats, change nothing.", "quantifier": "for every document and tree of boxes, every extension of it at the end, all styles, texts, fonts and page sizes", "why_tests_cant": "An addition can enter at any depth and passes through margins that collapse, automatic heights, anonymous blocks that are put around existing lines, and line breaking.", "anchors": ["src/sinab/src/layout/flow/mod.rs", "src/sinab/src/layout/flow/inline.rs", "src/sinab/src/layout/flow/construct.rs"]}
{"id": "C81", "title": "Magnifying a document magnifies its drawing", "statement": "If every length in the computed styles of a document, every measure of its fonts and the size of the page are multiplied by the same positive factor (percentages, unit-less numbers, colours and texts staying as they are), the document is laid out if and only if the original is, and what is drawn is exactly the original drawing magnified: the same texts, rectangles, lines and recorded boxes, in the same order and with the same colours and line styles, with all coordinates, sizes and line widths multiplied by the factor. In particular lines break at the same places.", "quantifier": "for all positive factors, all devices whose fonts are magnified versions of each other, all documents and style sheets whose computed styles are magnified versions of each other, and all page sizes", "why_tests_cant": "A test compares a page at a few sizes; that no step of layout or painting contains an absolute length (a pixel constant, a threshold, a rounding step) for any combination of boxes, margins, positioned elements and lines is a statement about every document and every factor.", "anchors": ["src/sinab/src/layout/mod.rs", "src/sinab/src/layout/flow/mod.rs", "src/sinab/src/layout/flow/inline.rs", "src/sinab/src/layout/flow/construct.rs", "src/sinab/src/layout/positioned.rs", "src/sinab/src/paint.rs"]}
{"id": "C82", "title": "Calling the renderer from R with any arguments leaves nothing behind", "statement": "Whatever R values are passed to the function that renders markdown — vectors of any type and length — the call reads nothing outside of its arguments or after R has reclaimed it, whenever R collects garbage, and when it comes back to R, with a value or through an R error, everything it allocated or preserved has been released. If the texts are character vectors and the sizes numbers, the value is the list of graphical objects of the rendering, an empty list if a text has no elements; only the first elements are used; and all R values that were in use keep their contents.", "quantifier": "for all arguments, all states of R's memory and all behaviours of its garbage collector, all external parsers and fonts", "why_tests_cant": "A leak or an invalid read does not change the value of a call, so a test of the result does not see it; when R collects garbage cannot be controlled in a test at every allocation, and argument types are not restricted by the interface.", "anchors": ["src/render_markdown.c", "R/render-markdown.R", "src/render_device.c", "src/sinab/src/test.rs"]}
{"id": "C83", "title": "The drawing is determined by the elements and texts of the document", "statement": "Two texts whose documents have the same elements (with the same attributes) and the same texts in the same places, and the same style sheets, are drawn in exactly the same way or are both not drawn: comments, processing instructions, the doctype and the order in which the parser created the nodes have no influence. In particular a selector matches an element of one document if and only if it matches the corresponding element of the other.", "quantifier": "for all pairs of documents that agree up to comments, processing instructions, doctype and numbering of nodes; all selectors, style sheets, fonts and page sizes", "why_tests_cant": "Comments can be put into a document at any place and in any number, and the parser creates nodes in an order that depends on the whole text; a test checks some placements only, while sibling selectors and white space handling could go wrong at a particular one.", "anchors": ["src/sinab/src/dom/mod.rs", "src/sinab/src/style/selectors.rs", "src/sinab/src/style/cascade.rs", "src/sinab/src/layout/flow/construct.rs", "src/sinab/src/layout/element_data.rs"]}
{"id": "C84", "title": "Which of several contradicting declarations decides", "statement": "If several style rules of the author say something about the same property of an element, an important declaration decides; among equally important ones that of the rule whose selector has more ids, then more classes, attribute selectors and pseudo-classes, then more element names (numbers above 1023 count as 1023), also inside :not(); then the later one. The style attribute decides against all rules except important declarations, which it needs an important declaration to outrank. The only exceptions are hidden input elements and <br>, for which the built-in style sheet decides.", "quantifier": "for all documents, all lists of rules with selectors of any length, all elements and all properties", "why_tests_cant": "The order is a comparison of four numbers and two positions over all pairs of selectors; tests compare a few pairs.", "anchors": ["src/sinab/src/style/cascade.rs", "src/sinab/src/style/selectors.rs", "src/sinab/src/style/declaration_block.rs", "src/sinab/src/style/user_agent.css"]}
{"id": "C85", "title": "The derived readers and converters of CSS values do what the type declarations say", "statement": "A type that derives Parse is accepted exactly if it is a struct without fields or an enum whose variants have no fields or one unnamed field and whose keyword names consist of ASCII letters. Its reader returns the first variant with a field (in order of declaration) whose field type reads the tokens; if there is none, the variant whose name, each capital letter turned into a hyphen (except at the start) and its lower-case letter, is the identifier found; otherwise it fails. Different capitalised names have different keywords, so that every variant without fields can be written. Deriving FromSpecified keeps the variant and converts every field once by its own type; deriving FromVariants gives exactly the conversions of the variants with one unnamed field. The readers of all keyword and length types of the style engine are the ones derived from their declarations.", "quantifier": "for all type declarations, all readers of the field types, all token sequences and all values", "why_tests_cant": "The macros are programs that write programs; a test fixes one declaration and one input.", "anchors": ["src/sinab/sinab-derive/src/style.rs", "src/sinab/sinab-derive/src/generic.rs", "src/sinab/src/style/values/length.rs", "src/sinab/src/style/values/line.rs"]}
{"id": "C86", "title": "Errors in style sheets are contained", "statement": "Every sequence of tokens is a style sheet: it consists of style rules, at-rules, white space, comments and possibly an unfinished rest. The styles defined are those of the style rules whose selectors can be read, with the declarations found in their blocks, in order. At-rules with everything in their blocks (such as @media), rules with unreadable selectors, comments, <!-- and --> have no influence on the page wherever they stand between rules; at-rules, pieces that are not of the form name : value, unknown properties and values of which no beginning can be read have none wherever they stand between declarations.", "quantifier": "for all token sequences, all selector parsers, all style sheets before and after, all documents", "why_tests_cant": "A test inserts one kind of error at one place of one style sheet.", "anchors": ["src/sinab/src/style/rules.rs", "src/sinab/src/style/cascade.rs", "src/sinab/src/style/declaration_block.rs"]}
{"id": "C87", "title": "What in a style sheet has no influence", "statement": "The page depends on a style sheet only through the declarations of the rules that match an element, in their order for each specificity. In particular: selectors that match nothing in the document can be added or removed; neighbouring rules can be exchanged if their specificities differ or if they never match the same element; a rule with a list of selectors can be replaced by separate rules with the same declarations.", "quantifier": "for all documents, all selector engines, all style sheets, all page sizes", "why_tests_cant": "It compares the renderings of unboundedly many pairs of style sheets.", "anchors": ["src/sinab/src/style/cascade.rs", "src/sinab/src/style/rules.rs", "src/sinab/src/dom/mod.rs"]}
{"id": "C88", "title": "What the height of the page has an influence on", "statement": "If the root element does not have a percentage as height, what is drawn does not depend on the height of the page given by the caller, except for absolutely positioned elements that belong to the page and are placed by `bottom` without `top`: these are moved by the difference of the heights. (`right` without `left` must not make a difference.)", "quantifier": "for all documents, styles and fonts, all page widths and all pairs of heights", "why_tests_cant": "A test compares two heights for one document; the claim is about all documents, all nestings and all heights.", "anchors": ["src/sinab/src/layout/flow/root.rs", "src/sinab/src/layout/flow/mod.rs", "src/sinab/src/layout/positioned.rs", "src/sinab/src/paint.rs"]}
{"id": "C89", "title": "Text is broken to as few lines as possible", "statement": "There is no way of cutting a wrapped text behind its spaces, hyphens and newlines to fewer lines such that every line fits (not counting the space or hyphen at its end) or is a single word; lines that hold none of the text are not counted, and there are such lines only at the beginning and at the end. In particular, a text has no more lines in a wider container than in a narrower one.", "quantifier": "for all texts, all container widths and positions on the line, all fonts in which a text is not narrower than its parts, all ways of cutting the text", "why_tests_cant": "A test compares the lines with a few other ways of cutting a few texts; the claim is about all of them, and about all fonts and widths.", "anchors": ["src/sinab/src/layout/flow/inline.rs", "src/sinab/src/graphics_engine/shaped_segment.rs"]}
{"id": "C90", "title": "Colours have no influence on the layout", "statement": "If two style sheets say the same to the elements of a page except about colours (text, background and border colours), then the page is rendered with one of them exactly if it is rendered with the other, and the same texts in the same fonts and the same border lines are drawn at the same places in the same order, and the same areas are reported to R. Only the colours, and which backgrounds are drawn, can differ.", "quantifier": "for all documents, all pairs of legible style sheets that differ only in declarations of colours, all page sizes and all font metrics", "why_tests_cant": "A test compares a few pages in a few colours; that no computation of a size or position anywhere looks at a colour, also through inheritance and the order of the cascade, is a claim about all pages.", "anchors": ["src/sinab/src/paint.rs", "src/sinab/src/style/cascade.rs", "src/sinab/src/style/declaration_block.rs", "src/sinab/src/layout/flow/mod.rs", "src/sinab/src/layout/flow/inline.rs", "src/sinab/src/layout/positioned.rs"]}
{"id": "C91", "title": "How white space is written in the source does not matter", "statement": "Where white space is collapsed, spaces, tabs and line breaks in the source can be exchanged for each other and repeated without any effect on what is drawn: two documents with the same elements whose texts have the same words, with white space between the same words and at the same ends, are drawn in exactly the same way, and selectors match the same elements in both. White space at the start of an element, between blocks and next to other white space, and comments, can be added or removed; the boxes and the drawing stay the same. Texts with preserved white space are excepted.", "quantifier": "for all documents, style sheets and page sizes, and all ways to write the white space", "why_tests_cant": "A test compares some pages with some indentation; the claim is that no amount or kind of white space in any of the infinitely many places of any document leaks into boxes or drawing, also across inline elements, floats and comments.", "anchors": ["src/sinab/src/layout/flow/construct.rs", "src/sinab/src/dom/mod.rs", "src/sinab/src/layout/mod.rs"]}
{"id": "C92", "title": "A wider page is never longer", "statement": "If the page is made wider and nothing else is changed, no paragraph takes more lines, no paragraph gets higher, and no block of the page moves down or ends further down.", "quantifier": "for all texts, inline elements, block structures, font metrics and pairs of widths, under the conditions named in the theorems", "why_tests_cant": "Where lines break depends on every word and every width; a test compares two widths of some texts. That the greedy breaking of runs of text, with spaces that are dropped where they do not fit, is monotone in the width is a claim about all positions at which any line can end, and it holds only under conditions that sampled pages do not reveal.", "anchors": ["src/sinab/src/layout/flow/inline.rs", "src/sinab/src/layout/flow/mod.rs", "src/sinab/src/layout/flow/root.rs"]}
{"id": "C93", "title": "Editing a paragraph moves only what follows it", "statement": "If the words of one paragraph are replaced by others, everything drawn before it stays the same, except that the backgrounds and borders of the blocks around it become higher or lower; the paragraph begins in the same place; everything drawn after it is moved down or up by the change of its height and is otherwise unchanged; and what follows a block around it whose height is given does not move at all.", "quantifier": "for all pages without absolutely positioned boxes, all paragraphs at any depth, all old and new inline contents, all styles, font metrics and page sizes", "why_tests_cant": "The place of a block depends on the margins of all blocks before it, which collapse through and with each other; a test edits some paragraph on some page. That the change of one height reaches the rest of the page only as one common shift is a claim about every structure of blocks around the paragraph and every combination of margins.", "anchors": ["src/sinab/src/layout/flow/mod.rs", "src/sinab/src/layout/flow/inline.rs", "src/sinab/src/layout/flow/root.rs", "src/sinab/src/layout/fragments.rs", "src/sinab/src/paint.rs"]}
{"id": "C94", "title": "A plain block around consecutive blocks changes nothing that is seen", "statement": "If consecutive blocks, none of which has a height given as a percentage, are put in a block of their own that has no size, margins, padding, borders and visible background (a `div` for which nothing is said), then all texts are drawn in the same places and in the same order; and if no block in them has a border above or below a negative padding, then all rectangles with a height and all lines with a length are the same, too. Both conditions are needed.", "quantifier": "for all pages without absolutely positioned boxes, all consecutive blocks at any depth, all styles, font metrics and page sizes", "why_tests_cant": "A new block around others takes part in the collapsing of margins: its margins collapse with those of its first and last child, through it if all its content is empty, and with what is around it. A test wraps some blocks in some page; that the wrapper is invisible is a claim about every sequence of margins (positive and negative), every mix of empty and non-empty blocks in it, before it and after it.", "anchors": ["src/sinab/src/layout/flow/mod.rs", "src/sinab/src/layout/flow/construct.rs", "src/sinab/src/layout/flow/root.rs", "src/sinab/src/layout/fragments.rs", "src/sinab/src/paint.rs"]}
{"id": "C95", "title": "What is out of flow has no influence on the rest", "statement": "If boxes that are absolutely positioned, or floats, are removed from a page, at any depth, then everything in the flow is laid out exactly as before (same boxes, sizes, margins, lines and positions), and everything that is still drawn, including the other absolutely positioned boxes, is drawn as before: in the same places and in the same order. For documents: removing an element that is absolutely positioned, or a float, changes nothing else.", "quantifier": "for all box trees, all choices of boxes that are out of flow, all styles, font metrics and page sizes; for all documents", "why_tests_cant": "A box that is out of flow still passes through the layout of its neighbours: it leaves an empty fragment that is placed among them, it takes an index to which static positions refer, it waits in a list that is handed upwards, and the margins of the blocks around it must collapse as if it were not there. A test compares some page with and without some box; that no index, offset or margin is ever disturbed is a claim about all trees and all places.", "anchors": ["src/sinab/src/layout/positioned.rs", "src/sinab/src/layout/flow/mod.rs", "src/sinab/src/layout/flow/inline.rs", "src/sinab/src/layout/flow/construct.rs", "src/sinab/src/layout/flow/root.rs", "src/sinab/src/paint.rs"]}
{"id": "C96", "title": "A plain span makes no difference", "statement": "If consecutive inline content of a page (texts, inline elements, elements that are out of flow) is put in an inline element without margins, padding, borders and visible background, with the same font and text properties as around it and not shifted (a `span` for which no style sheet says anything), then the same text and the same rectangles are drawn, in the same places and in the same order: lines break at the same places, baselines and line heights are the same, absolutely positioned boxes inside keep their places.", "quantifier": "for all box trees, any number of such boxes, nested or not, at any depth; all styles, font metrics and page sizes; for all documents", "why_tests_cant": "An inline box is cut where a line ends, adds space at its start and end, contributes its own ascent and descent to each line, and is what absolutely positioned boxes inside it are placed in. That all this vanishes for a plain box, for every text, width, nesting and place of the cuts, cannot be seen from examples.", "anchors": ["src/sinab/src/layout/flow/inline.rs", "src/sinab/src/layout/flow/mod.rs", "src/sinab/src/layout/flow/construct.rs", "src/sinab/src/layout/positioned.rs", "src/sinab/src/paint.rs"]}
{"id": "C97", "title": "A block looks the same wherever it stands", "statement": "A block in the normal flow whose height is not a percentage, and in which nothing is positioned with respect to something outside of it, is drawn exactly as on a page on which it stands alone and which is as wide as the room that the blocks around leave for it (this follows from their styles and the width of the page): the same text, rectangles and lines, consecutively and in the same order, moved to the right by the place where that room begins, and down. What stands before, after and around it, floats and absolutely positioned boxes included, has no other influence. The same holds for an element of a document and a document of which nothing is seen but this element.", "quantifier": "for all blocks, all pages in which they stand at any depth, all styles, font metrics and page sizes; for all documents", "why_tests_cant": "Layout of a block gets the index among its siblings, the list of absolutely positioned boxes found so far, the state of floats and collapsed margins from outside, and a tree is laid out recursively with the results of all children at once. That none of this reaches the contents of a block has to hold for every tree.", "anchors": ["src/sinab/src/layout/flow/mod.rs", "src/sinab/src/layout/flow/inline.rs", "src/sinab/src/layout/positioned.rs", "src/sinab/src/layout/flow/construct.rs", "src/sinab/src/paint.rs"]}
{"id": "C98", "title": "An absolutely positioned box looks the same wherever it stands in the source", "statement": "An absolutely positioned box of which it is said how far from the left or the right edge of its containing block it is, and whose containing block is the page, is drawn exactly as on a page of the same size with nothing but this box: the same text, rectangles and lines, consecutively and in the same order, and at the same place if it is also said how far from the top or the bottom it is, else moved up or down. The boxes in which it stands and all others have no other influence. If its containing block is a relatively positioned block, it is drawn as on a page as wide as that block with its padding, moved to the right by the place where the padding begins. The same holds for an absolutely positioned element of a document, in inline elements and blocks at any depth, and a document of which nothing is seen but this element.", "quantifier": "for all absolutely positioned boxes, all pages in which they stand at any depth, all styles, font metrics and page sizes; for all documents", "why_tests_cant": "An absolutely positioned box is collected in a list on the way up from its place in the source, its position is adjusted in every block on that way, and it is laid out much later with the containing block. That nothing on this way changes what it looks like has to hold for every tree.", "anchors": ["src/sinab/src/layout/positioned.rs", "src/sinab/src/layout/flow/mod.rs", "src/sinab/src/layout/flow/inline.rs", "src/sinab/src/layout/flow/root.rs", "src/sinab/src/layout/flow/construct.rs", "src/sinab/src/paint.rs"]}
{"id": "C99", "title": "A page is composed of its blocks", "statement": "What is drawn for a page with some blocks one after the other is what is drawn for a page of the same size with the first of them alone, followed by what is drawn for a page with the second alone, moved down, and so on; nothing else is drawn. How far a block is moved depends on the blocks before it and on the block itself, but not on the blocks after it, and the first block is not moved. With the same blocks in another order the same texts, rectangles and lines are drawn, equally far to the right. A document in which there is nothing to see but some block-level elements, in any number of plain blocks, looks like the documents with one of these elements each, put below each other. (Nothing in the blocks is positioned with respect to the page; in the case of documents, the heights of the elements are not percentages.)", "quantifier": "for all lists of blocks, all contents and styles of them, all font metrics and page sizes; for all permutations of the blocks; for all documents", "why_tests_cant": "Layout passes a placement state with collapsed margins, a rank and a list of absolutely positioned boxes from each block to the next. That none of these leaks into the appearance of a later block has to hold for every number of blocks with every possible content.", "anchors": ["src/sinab/src/layout/flow/mod.rs", "src/sinab/src/layout/flow/root.rs", "src/sinab/src/layout/flow/construct.rs", "src/sinab/src/layout/positioned.rs", "src/sinab/src/paint.rs"]}
{"id": "C100", "title": "A forced line break starts a new line", "statement": "If there is a newline in a paragraph where white space is preserved, or a line break element, then what is drawn for the paragraph is what is drawn for the part up to and including the line break, followed by what is drawn for the part behind it, laid out as a paragraph of its own and moved down by exactly the height of the lines of the first part: what stands in front of a line break has no influence on the lines behind it, and the other way round. The paragraph is as high as its parts together. A text with any number of newlines, and a document in which there is nothing to see but texts with any number of line break elements between them, in any number of plain blocks, looks like its lines, each as a paragraph of its own, one below the other.", "quantifier": "for all texts and inline boxes in front of and behind the line break, all numbers of line breaks, all styles, alignments, font metrics and page widths; for all documents with line break elements between texts", "why_tests_cant": "Where lines are broken depends on the widths of all texts on the line; that the state of the line breaker after a forced break is the state at the start of a paragraph has to hold for every text, width and font.", "anchors": ["src/sinab/src/layout/flow/inline.rs", "src/sinab/src/layout/flow/construct.rs", "src/sinab/src/layout/dom_traversal.rs", "src/sinab/src/style/user_agent.css"]}
