{
 "claims": [
  {
   "property": "C01",
   "status": "proved",
   "theorems": [
    "Sinab.C01_grobs_in_order",
    "Sinab.C01_grob_count"
   ],
   "note": ""
  },
  {
   "property": "C02",
   "status": "proved",
   "theorems": [
    "Sinab.C02_bbox_hull",
    "Sinab.C02_bbox_order"
   ],
   "note": ""
  },
  {
   "property": "C03",
   "status": "proved",
   "theorems": [
    "Sinab.C03_color_roundtrip",
    "Sinab.C03_color_injective",
    "Sinab.C03_color_length",
    "Sinab.C03_color_fits"
   ],
   "note": ""
  },
  {
   "property": "C04",
   "status": "proved",
   "theorems": [
    "Sinab.C04_fontface",
    "Sinab.C04_fontface_order",
    "Sinab.C04_font"
   ],
   "note": ""
  },
  {
   "property": "C05",
   "status": "proved",
   "theorems": [
    "Sinab.C05_copy_on_write"
   ],
   "note": ""
  },
  {
   "property": "C06",
   "status": "partial",
   "theorems": [
    "Sinab.C06_full_false",
    "Sinab.C06_fontfamily_partial"
   ],
   "note": "False of the code: a family name of 201 or more bytes overflows the buffer (C06_full_false). Proved: names up to 200 bytes and all colours."
  },
  {
   "property": "C07",
   "status": "proved",
   "theorems": [
    "Sinab.C07_size_roundtrip",
    "Sinab.C07_sides",
    "Sinab.C07_sides_perm",
    "Sinab.C07_sides_injective",
    "Sinab.C07_horizontal_ltr"
   ],
   "note": ""
  },
  {
   "property": "C08",
   "status": "proved",
   "theorems": [
    "Sinab.C08_box_edges",
    "Sinab.C08_boxes_nest"
   ],
   "note": ""
  },
  {
   "property": "C09",
   "status": "proved",
   "theorems": [
    "Sinab.C09_wellFormed",
    "Sinab.C09_total",
    "Sinab.C09_once",
    "Sinab.C09_symmetric",
    "Sinab.C09_acyclic",
    "Sinab.C09_unique"
   ],
   "note": ""
  },
  {
   "property": "C10",
   "status": "proved",
   "theorems": [
    "Sinab.C10_detach",
    "Sinab.C10_append",
    "Sinab.C10_insertBefore"
   ],
   "note": ""
  },
  {
   "property": "C11",
   "status": "proved",
   "theorems": [
    "Sinab.C11_documentOrder",
    "Sinab.C11_order"
   ],
   "note": ""
  },
  {
   "property": "C12",
   "status": "proved",
   "theorems": [
    "Sinab.C12_append",
    "Sinab.C12_insert",
    "Sinab.C12_pieces",
    "Sinab.C12_content",
    "Sinab.C12_noAdjacent_append",
    "Sinab.C12_noAdjacent_insert",
    "Sinab.C12_elements"
   ],
   "note": "append_before_sibling: the no-neighbouring-text claim is stated for a sibling that is not itself text (the tree builder uses it for table elements only)."
  },
  {
   "property": "C13",
   "status": "proved",
   "theorems": [
    "Sinab.C13_merge",
    "Sinab.C13_nodup",
    "Sinab.C13_lookup",
    "Sinab.C13_document"
   ],
   "note": ""
  },
  {
   "property": "C14",
   "status": "partial",
   "theorems": [
    "Sinab.C14_first",
    "Sinab.C14_reparent_partial",
    "Sinab.C14_full_false"
   ],
   "note": "False of the code for two or more children: reparent_children reads next_sibling after the child has been moved, so only the first child is moved (C14_full_false). Proved for at most one child; C14_first gives the exact effect."
  },
  {
   "property": "C15",
   "status": "proved",
   "theorems": [
    "Sinab.C15_sheets",
    "Sinab.C15_page",
    "Sinab.C15_sheet_order",
    "Sinab.C15_styled",
    "Sinab.C15_rendered"
   ],
   "note": ""
  },
  {
   "property": "C16",
   "status": "partial",
   "theorems": [
    "Sinab.C16_full_false",
    "Sinab.C16_partial",
    "Sinab.C16_junk",
    "Sinab.C16_unknown",
    "Sinab.C16_independent",
    "Sinab.C16_abort"
   ],
   "note": "False of the code: a value that is followed by further components (display: block block) aborts (C16_full_false). Proved: declarations of which no initial part is valid either are dropped, declarations are independent, and C16_abort tells exactly when a block aborts."
  },
  {
   "property": "C17",
   "status": "proved",
   "theorems": [
    "Sinab.C17_four_sides"
   ],
   "note": ""
  },
  {
   "property": "C18",
   "status": "proved",
   "theorems": [
    "Sinab.C18_side",
    "Sinab.C18_border",
    "Sinab.C18_only"
   ],
   "note": ""
  },
  {
   "property": "C19",
   "status": "partial",
   "theorems": [
    "Sinab.C19_of_parse",
    "Sinab.C19_absolute",
    "Sinab.C19_em_zero",
    "Sinab.C19_rejected",
    "Sinab.C19_full_false"
   ],
   "note": "False of the code for the last clause: negative padding, border widths and font sizes are accepted (C19_full_false). Everything else is proved."
  },
  {
   "property": "C20",
   "status": "partial",
   "theorems": [
    "Sinab.C20_full_false",
    "Sinab.C20_partial"
   ],
   "note": "False of the code: border-right-color is unknown (C20_full_false; it is spelled border-color-right). Proved for all other documented names."
  },
  {
   "property": "C21",
   "status": "partial",
   "theorems": [
    "Sinab.C21_full_false",
    "Sinab.C21_partial"
   ],
   "note": "False of the code: font-family with !important is dropped (C21_full_false). Proved for all other declarations."
  },
  {
   "property": "C22",
   "status": "proved",
   "theorems": [
    "Sinab.C22_accepted",
    "Sinab.C22_effect"
   ],
   "note": ""
  },
  {
   "property": "C23",
   "status": "proved",
   "theorems": [
    "Sinab.C23_winner",
    "Sinab.C23_unique"
   ],
   "note": ""
  },
  {
   "property": "C24",
   "status": "proved",
   "theorems": [
    "Sinab.C24_perm",
    "Sinab.C24_sorted",
    "Sinab.C24_stable",
    "Sinab.C24_rules"
   ],
   "note": ""
  },
  {
   "property": "C25",
   "status": "proved",
   "theorems": [
    "Sinab.C25_skip",
    "Sinab.C25_flags"
   ],
   "note": ""
  },
  {
   "property": "C26",
   "status": "proved",
   "theorems": [
    "Sinab.C26_reorder",
    "Sinab.C26_fontSize",
    "Sinab.C26_em"
   ],
   "note": ""
  },
  {
   "property": "C27",
   "status": "proved",
   "theorems": [
    "Sinab.C27_default",
    "Sinab.C27_inherited",
    "Sinab.C27_anonymous"
   ],
   "note": ""
  },
  {
   "property": "C28",
   "status": "proved",
   "theorems": [
    "Sinab.C28_display",
    "Sinab.C28_consistent",
    "Sinab.C28_specified"
   ],
   "note": ""
  },
  {
   "property": "C29",
   "status": "partial",
   "theorems": [
    "Sinab.C29_full_false",
    "Sinab.C29_partial"
   ],
   "note": "False of the code: class=\"a b\" does not match .a (C29_full_false). Proved: no false positives, single-class attributes match."
  },
  {
   "property": "C30",
   "status": "partial",
   "theorems": [
    "Sinab.C30_full_false",
    "Sinab.C30_partial",
    "Sinab.C30_generic"
   ],
   "note": "False of the code: display: NONE is dropped (C30_full_false). Proved for property names, units, generic font families."
  },
  {
   "property": "C31",
   "status": "proved",
   "theorems": [
    "Sinab.C31_next",
    "Sinab.C31_prev",
    "Sinab.C31_orphan",
    "Sinab.C31_inverse",
    "Sinab.C31_parent",
    "Sinab.C31_empty"
   ],
   "note": ""
  },
  {
   "property": "C32",
   "status": "proved",
   "theorems": [
    "Sinab.C32_collapsed_text",
    "Sinab.C32_collapsed_flat_text",
    "Sinab.C32_single_spaced",
    "Sinab.C32_words_kept_and_idempotent"
   ],
   "note": "For content with inline elements the equation has the hypothesis that no inline element begins with white space behind a word (see C33); single spacing is proved without it."
  },
  {
   "property": "C33",
   "status": "partial",
   "theorems": [
    "Sinab.C33_full_false",
    "Sinab.C33_words_partial",
    "Sinab.C33_exact_partial"
   ],
   "note": "False of the code: foo<em> bar</em> is laid out as foobar (C33_full_false). Proved: words are kept if no inline element begins with white space that separates words; C33_exact_partial gives the text in all cases."
  },
  {
   "property": "C34",
   "status": "proved",
   "theorems": [
    "Sinab.C34_preserved_text"
   ],
   "note": ""
  },
  {
   "property": "C35",
   "status": "proved",
   "theorems": [
    "Sinab.C35_reading_order",
    "Sinab.C35_shape",
    "Sinab.C35_completes",
    "Sinab.C35_page"
   ],
   "note": ""
  },
  {
   "property": "C36",
   "status": "partial",
   "theorems": [
    "Sinab.C36_block_in_inline_fails",
    "Sinab.C36_full_false"
   ],
   "note": "False of the code: a block of the flow inside of an inline element makes the construction fail, for all such content (C36_block_in_inline_fails); the witness aborts the process (C36_full_false). Nothing of the claim holds; floats and absolutely positioned boxes inside inline elements are covered by C35."
  },
  {
   "property": "C37",
   "status": "partial",
   "theorems": [
    "Sinab.C37_last_child_fails",
    "Sinab.C37_endless_loop",
    "Sinab.C37_full_false",
    "Sinab.C37_skipped_partial",
    "Sinab.C37_as_if_absent_partial",
    "Sinab.C37_outside_untouched_partial"
   ],
   "note": "False of the code if the hidden element is a last child: construction never completes (C37_last_child_fails, C37_endless_loop, C37_full_false). Proved for all other positions: completion, same boxes as without the element, nothing else touched."
  },
  {
   "property": "C38",
   "status": "proved",
   "theorems": [
    "Sinab.C38_slots_filled"
   ],
   "note": ""
  },
  {
   "property": "C39",
   "status": "partial",
   "theorems": [
    "Sinab.C39_width_auto_partial",
    "Sinab.C39_both_auto_partial",
    "Sinab.C39_given_margin_partial",
    "Sinab.C39_full_false"
   ],
   "note": "False of the code: with a given width and one given margin the other margin ignores it, so the sum is too large by that margin (C39_full_false, C39_given_margin_partial). Proved: width auto; both margins auto."
  },
  {
   "property": "C40",
   "status": "proved",
   "theorems": [
    "Sinab.C40_largest_plus_most_negative",
    "Sinab.C40_order_irrelevant"
   ],
   "note": ""
  },
  {
   "property": "C41",
   "status": "proved",
   "theorems": [
    "Sinab.C41_stacked",
    "Sinab.C41_no_overlap",
    "Sinab.C41_block",
    "Sinab.C41_independent",
    "Sinab.C41_border_top",
    "Sinab.C41_through_is_flat"
   ],
   "note": "C41_block and C41_independent describe containers, C41_no_overlap follows for non-negative margins and heights; a block that contains inline content never collapses through, even if it has no text (C41_through_is_flat)."
  },
  {
   "property": "C42",
   "status": "proved",
   "theorems": [
    "Sinab.C42_layout_completes",
    "Sinab.C42_static_position"
   ],
   "note": ""
  },
  {
   "property": "C43",
   "status": "partial",
   "theorems": [
    "Sinab.C43_found",
    "Sinab.C43_found_independent",
    "Sinab.C43_page_found",
    "Sinab.C43_horizontal_partial",
    "Sinab.C43_square_partial",
    "Sinab.C43_vertical_partial",
    "Sinab.C43_margins",
    "Sinab.C43_witness",
    "Sinab.C43_containing_block",
    "Sinab.C43_containing_block_independent",
    "Sinab.C43_containing_block_absolute",
    "Sinab.C43_page",
    "Sinab.C43_full_false"
   ],
   "note": "False of the code: the vertical axis is solved with the width of the containing block, and with only `right` given the distance is measured from its height (C43_full_false, C43_witness). Proved: the horizontal axis otherwise, vertical offsets in lengths, everything if the containing block is a square. The containing block is the padding area of the nearest positioned box, or the page (C43_containing_block…, C43_page)."
  },
  {
   "property": "C44",
   "status": "partial",
   "theorems": [
    "Sinab.C44_shift",
    "Sinab.C44_block",
    "Sinab.C44_siblings",
    "Sinab.C44_inline_partial",
    "Sinab.C44_witness",
    "Sinab.C44_full_false"
   ],
   "note": "False as stated: the parts of a relatively positioned inline box on lines after its first lose the horizontal shift (C44_full_false, C44_witness). Proved: the shift itself (C44_shift), block-level boxes in full (C44_block, C44_siblings), inline boxes with that exception (C44_inline_partial). Percentages of a block-level box refer to its own content size, as the code has it. The font of a style is assumed not to depend on the offsets."
  },
  {
   "property": "C45",
   "status": "proved",
   "theorems": [
    "Sinab.C45_without_floats",
    "Sinab.C45_same_fragments",
    "Sinab.C45_document",
    "Sinab.C45_marks"
   ],
   "note": "For every sound box tree; trees built from documents are sound (C45_document). Stronger than the statement: floats themselves have no influence either."
  },
  {
   "property": "C46",
   "status": "partial",
   "theorems": [
    "Sinab.C46_full_false",
    "Sinab.C46_partial",
    "Sinab.C46_whitespace_only",
    "Sinab.C46_terminates"
   ],
   "note": "False of the code: the hyphen behind a word too long for a whole line is dropped (C46_full_false). Proved: termination (C46_terminates), and that nothing but white space at the breaks and such hyphens is dropped; without hyphens or without overlong words only white space (C46_whitespace_only)."
  },
  {
   "property": "C47",
   "status": "partial",
   "theorems": [
    "Sinab.C47_full_false",
    "Sinab.C47_partial"
   ],
   "note": "False of the code: a hyphen at the end of a line is not counted, so a line may be too wide by the hyphen (C47_full_false). Proved: a line fits, or is one unbreakable word, or fits without its final hyphen."
  },
  {
   "property": "C48",
   "status": "proved",
   "theorems": [
    "Sinab.C48_drawn",
    "Sinab.C48_document",
    "Sinab.C48_nowrap"
   ],
   "note": ""
  },
  {
   "property": "C49",
   "status": "partial",
   "theorems": [
    "Sinab.C49_full_false",
    "Sinab.C49_partial"
   ],
   "note": "False of the code for a trailing space removed while a state is saved (C49_full_false: the restored cached width belongs to the longer text). Proved for all sequences that never do that, with the resulting text and absence of aborts."
  },
  {
   "property": "C50",
   "status": "proved",
   "theorems": [
    "Sinab.C50_stack",
    "Sinab.C50_count",
    "Sinab.C50_nowrap"
   ],
   "note": ""
  },
  {
   "property": "C51",
   "status": "proved",
   "theorems": [
    "Sinab.C51_drawn",
    "Sinab.C51_document",
    "Sinab.C51_only_lines_move",
    "Sinab.C51_start"
   ],
   "note": ""
  },
  {
   "property": "C52",
   "status": "proved",
   "theorems": [
    "Sinab.C52_edges",
    "Sinab.C52_once",
    "Sinab.C52_nesting"
   ],
   "note": ""
  },
  {
   "property": "C53",
   "status": "proved",
   "theorems": [
    "Sinab.C53_tiled"
   ],
   "note": ""
  },
  {
   "property": "C54",
   "status": "proved",
   "theorems": [
    "Sinab.C54_line"
   ],
   "note": ""
  },
  {
   "property": "C55",
   "status": "proved",
   "theorems": [
    "Sinab.C55_tree_order",
    "Sinab.C55_box",
    "Sinab.C55_text",
    "Sinab.C55_texts",
    "Sinab.C55_page"
   ],
   "note": "For the fragment trees that layout makes (C55_page), and for all trees without unusual writing modes."
  },
  {
   "property": "C56",
   "status": "proved",
   "theorems": [
    "Sinab.C56_translate",
    "Sinab.C56_sum_of_offsets"
   ],
   "note": ""
  },
  {
   "property": "C57",
   "status": "proved",
   "theorems": [
    "Sinab.C57_background",
    "Sinab.C57_borders",
    "Sinab.C57_inside"
   ],
   "note": "C57_inside: the stroked line (flat ends, as R draws it) lies in the border strip and reaches its corners."
  },
  {
   "property": "C58",
   "status": "partial",
   "theorems": [
    "Sinab.C58_reported",
    "Sinab.C58_margin_boxes",
    "Sinab.C58_decorations_partial",
    "Sinab.C58_witness",
    "Sinab.C58_full_false"
   ],
   "note": "False of the code as stated: layout can give a block a negative width, and the recorded margin box does not contain its background then (C58_full_false, C58_witness). Proved: the margin box of every box is contained without any condition; backgrounds and borders of boxes with non-negative margins and sizes."
  },
  {
   "property": "C59",
   "status": "partial",
   "theorems": [
    "Sinab.C59_all_or_nothing",
    "Sinab.C59_drawn",
    "Sinab.C59_contained_partial",
    "Sinab.C59_not_contained",
    "Sinab.C59_fuel",
    "Sinab.C59_invalid_text",
    "Sinab.C59_invalid_css",
    "Sinab.C59_nothing_drawn_partial",
    "Sinab.C59_returned",
    "Sinab.C59_no_input",
    "Sinab.C59_full_false",
    "Sinab.C59_markdown_escapes"
   ],
   "note": "False of the code as stated (C59_full_false): a second panic while the first one is being unwound ends the process (an inline element with a block inside it, a<em>b<p>c</p>d</em>). Proved: the HTML entry points return normally or report an error with nothing drawn, all or nothing, for every input that does not abort or loop; panics of the markdown entry point are not caught (C59_markdown_escapes)."
  },
  {
   "property": "C60",
   "status": "proved",
   "theorems": [
    "Sinab.C60_grob_units",
    "Sinab.C60_distances",
    "Sinab.C60_page",
    "Sinab.C60_metrics",
    "Sinab.C60_fontsize"
   ],
   "note": ""
  },
  {
   "property": "C61",
   "status": "partial",
   "theorems": [
    "Sinab.C61_lines_drawn",
    "Sinab.C61_characters",
    "Sinab.C61_characters_hyphenless",
    "Sinab.C61_words_partial",
    "Sinab.C61_hyphenless_partial",
    "Sinab.C61_full_false",
    "Sinab.C61_words_run_together"
   ],
   "note": "False of the code as stated (C61_full_false: foo<b>bar</b> is broken inside the word; C61_words_run_together: a dropped space runs two words together). Proved for all documents in the flow: every visible character in document order with font and colour (C61_characters), and the words for content in which runs of text do not meet inside words and spaces are not wider than what follows them (C61_words_partial)."
  },
  {
   "property": "C62",
   "status": "partial",
   "theorems": [
    "Sinab.C62_full_false",
    "Sinab.C62_partial",
    "Sinab.C62_values"
   ],
   "note": "False of the code: line-height: normal is dropped (C62_full_false). Proved for all other documented keywords and for percentages, numbers, family names."
  },
  {
   "property": "C63",
   "status": "proved",
   "theorems": [
    "Sinab.C63_greedy"
   ],
   "note": ""
  },
  {
   "property": "C64",
   "status": "partial",
   "theorems": [
    "Sinab.C64_full_false",
    "Sinab.C64_text_style_partial"
   ],
   "note": "False of the code: text behind a leading <br> is laid out in the style of <br> (C64_full_false). Proved where all texts directly in an element have its style, but for line breaks immediately behind text."
  },
  {
   "property": "C65",
   "status": "proved",
   "theorems": [
    "Sinab.C65_characters",
    "Sinab.C65_characters_hyphenless"
   ],
   "note": "For text in the style of its element (uniformAll; C37 explains the exception)."
  },
  {
   "property": "C66",
   "status": "proved",
   "theorems": [
    "Sinab.C66_device_memory",
    "Sinab.C66_drawn",
    "Sinab.C66_late_protection_fails"
   ],
   "note": ""
  },
  {
   "property": "C67",
   "status": "partial",
   "theorems": [
    "Sinab.C67_partial",
    "Sinab.C67_classes",
    "Sinab.C67_of_type",
    "Sinab.C67_alone_partial",
    "Sinab.C67_full_false"
   ],
   "note": "False of the code: :nth-of-type(), :first-of-type, :only-of-type etc. abort because the comparison of types is not implemented (C67_full_false, C67_of_type), and classes are compared with the whole attribute (C29). Exactly which elements abort: C67_of_type; C67_alone_partial: the answer is right if there are no siblings to compare with. Proved for all other selectors; C67_classes gives one direction for arbitrary class attributes. The matching algorithm of the external selectors crate is modelled by its documented interface, without its pruning."
  },
  {
   "property": "C68",
   "status": "proved",
   "theorems": [
    "Sinab.C68_sheet",
    "Sinab.C68_defaults",
    "Sinab.C68_author",
    "Sinab.C68_important",
    "Sinab.C68_rendered"
   ],
   "note": ""
  },
  {
   "property": "C69",
   "status": "proved",
   "theorems": [
    "Sinab.C69_md_to_html",
    "Sinab.C69_nul_crashes"
   ],
   "note": "For elements whose HTML has no NUL; C69_nul_crashes proves what happens otherwise (abort). R's own allocation functions are assumed to succeed."
  },
  {
   "property": "C70",
   "status": "partial",
   "theorems": [
    "Sinab.C70_size",
    "Sinab.C70_position_partial",
    "Sinab.C70_origin_partial",
    "Sinab.C70_same_picture",
    "Sinab.C70_arguments",
    "Sinab.C70_first_text",
    "Sinab.C70_full_false"
   ],
   "note": "False of the code (C70_full_false): justification moves the text by multiples of the viewport's size instead of the text's, vertically to the wrong side. The sizes, the independence of layout from the position and the position for hjust = 0, vjust = 1 are proved. grid itself (push of viewports without rotation, units in inches and npc) is modelled by its documented behaviour."
  },
  {
   "property": "C71",
   "status": "partial",
   "theorems": [
    "Sinab.C71_text_room_partial",
    "Sinab.C71_measured_as_drawn_partial",
    "Sinab.C71_full_false"
   ],
   "note": "False of the code in one respect (C71_full_false): the room recorded for a text starts at the top of the glyphs instead of half the leading above, so it sticks out of the line at the bottom, and so does the reported extent of the page. Everything else is proved; the R-level statement is for font family names that fit the C buffer (C06)."
  },
  {
   "property": "C72",
   "status": "proved",
   "theorems": [
    "Sinab.C72_supported"
   ],
   "note": "Readable style sheets, NUL-free text and legality of the parser's calls are hypotheses (violations of each are the subject of C16, C67, C59 and C09)."
  },
  {
   "property": "C73",
   "status": "proved",
   "theorems": [
    "Sinab.C73_names",
    "Sinab.C73_ends_invisible",
    "Sinab.C73_block_in_inline"
   ],
   "note": "A corollary of C72 and C68 in terms of element names; C73_ends_invisible and C73_block_in_inline are the two ways to fail."
  },
  {
   "property": "C74",
   "status": "proved",
   "theorems": [
    "Sinab.C74_decorations",
    "Sinab.C74_backgrounds",
    "Sinab.C74_lines",
    "Sinab.C74_borders",
    "Sinab.C74_once",
    "Sinab.C74_only_text",
    "Sinab.C74_rendered"
   ],
   "note": "C74_decorations is the complete multiset of backgrounds and border lines; C74_backgrounds, C74_lines, C74_borders, C74_once and C74_only_text are consequences; C74_rendered starts from the source text. Positions of the decorations are C56/C57."
  },
  {
   "property": "C75",
   "status": "proved",
   "theorems": [
    "Sinab.C75_reading_order",
    "Sinab.C75_characters",
    "Sinab.C75_apart",
    "Sinab.C75_letters",
    "Sinab.C75_rendered",
    "Sinab.C75_contents_false"
   ],
   "note": "C75_reading_order is the complete statement; C75_characters adds which characters; C75_apart and C75_letters are consequences; C75_rendered starts from the source text. C75_contents_false: without the condition on display: contents it is false (large text is drawn over the next line)."
  },
  {
   "property": "C76",
   "status": "proved",
   "theorems": [
    "Sinab.Jump.C76_fields",
    "Sinab.Jump.C76_compiles",
    "Sinab.Jump.C76_dispatch",
    "Sinab.Jump.C76_in_bounds",
    "Sinab.Jump.C76_longhand",
    "Sinab.Jump.C76_declarations"
   ],
   "note": "Layout of enums and structs is stated as documented for repr(u8)/repr(u16) enums and repr(C) structs (RFC 2195); C76_dispatch is the main theorem, C76_longhand and C76_declarations apply it to the enums of style/properties."
  },
  {
   "property": "C77",
   "status": "proved",
   "theorems": [
    "Sinab.Shared.C77_values",
    "Sinab.Shared.C77_counted",
    "Sinab.Shared.C77_freed",
    "Sinab.Shared.C77_shared"
   ],
   "note": "C77_values compares with a specification in which every style has a copy of its own; C77_counted and C77_freed are about the reference counts; C77_shared about what is copied. One thread, counts do not overflow."
  },
  {
   "property": "C78",
   "status": "partial",
   "theorems": [
    "Sinab.C78_positions_partial",
    "Sinab.C78_css_partial",
    "Sinab.C78_full_false"
   ],
   "note": "False of the code in one respect (C78_full_false): a given height keeps margins apart even if it is 0, where CSS lets the margins of an empty block adjoin. C78_positions_partial is the exact behaviour for all pages; C78_css_partial: CSS 2.1 if no block has a given height of 0. A block that contains inline content counts as having lines even if nothing is in them."
  },
  {
   "property": "C79",
   "status": "partial",
   "theorems": [
    "Sinab.C79_positions_partial",
    "Sinab.C79_css_partial",
    "Sinab.C79_full_false"
   ],
   "note": "False of the code in two respects (C79_full_false): a centred block that is too wide sticks out on the left (CSS: it starts at the left edge), and if only the left margin is auto the given right margin is ignored. C79_positions_partial is the exact behaviour for all pages; C79_css_partial: CSS 2.1 if no block has a given width with an auto left margin, except centred blocks for which there is room."
  },
  {
   "property": "C80",
   "status": "partial",
   "theorems": [
    "Sinab.C80_append_partial",
    "Sinab.C80_full_false",
    "Sinab.C80_document_partial"
   ],
   "note": "False of the code in one case (C80_full_false): if a block is added after inline content in a block of given height, the anonymous block that is then put around the lines has no height of its own, and an element moved by a percentage of the height is no longer moved. C80_append_partial: the claim for trees of boxes in all other cases; C80_document_partial: for documents, where `Grown` says how the content of one document extends that of the other."
  },
  {
   "property": "C81",
   "status": "proved",
   "theorems": [
    "Sinab.C81_zoom",
    "Sinab.C81_document"
   ],
   "note": "Over the rationals: rounding of 32-bit floats is not modelled. C81_zoom: for trees of boxes; C81_document: for documents, from computed styles. Relation of the fonts: Zoom.Fonts."
  },
  {
   "property": "C82",
   "status": "partial",
   "theorems": [
    "Sinab.C82_returns_partial",
    "Sinab.C82_fails_partial",
    "Sinab.C82_raised",
    "Sinab.C82_outside",
    "Sinab.C82_full_false"
   ],
   "note": "False of the code: C82_full_false (an integer width, as in `render_markdown(\"a\", width_in = 5L)`). C82_raised: sizes that are not of type double, or texts that are not character vectors, raise an R error after the device and its list have been made, and both stay behind for good; C82_outside: a size without elements is read outside of its bounds. C82_returns_partial, C82_fails_partial: the claim for character texts and sizes of type double with elements."
  },
  {
   "property": "C83",
   "status": "partial",
   "theorems": [
    "Sinab.C83_selectors",
    "Sinab.C83_drawing_partial",
    "Sinab.C83_same_partial",
    "Sinab.C83_full_false"
   ],
   "note": "False of the code: a comment after a hidden last child makes a page drawable that is not drawn without it (C83_full_false). Proved: if both texts are drawn, the drawings are equal; and if the content of each element ends with an element in both documents or in none, both are drawn or none. The matching of selectors (C83_selectors) holds in full."
  },
  {
   "property": "C84",
   "status": "proved",
   "theorems": [
    "Sinab.C84_order",
    "Sinab.C84_same",
    "Sinab.C84_rule",
    "Sinab.C84_attribute"
   ],
   "note": ""
  },
  {
   "property": "C85",
   "status": "proved",
   "theorems": [
    "Sinab.Derive.C85_spelling",
    "Sinab.Derive.C85_compiles",
    "Sinab.Derive.C85_parse",
    "Sinab.Derive.C85_distinct",
    "Sinab.Derive.C85_reachable",
    "Sinab.Derive.C85_from_specified",
    "Sinab.Derive.C85_variants_compile",
    "Sinab.Derive.C85_into",
    "Sinab.Derive.C85_types"
   ],
   "note": ""
  },
  {
   "property": "C86",
   "status": "proved",
   "theorems": [
    "Sinab.C86_value",
    "Sinab.C86_declarations",
    "Sinab.C86_any_block",
    "Sinab.C86_rules",
    "Sinab.C86_any_sheet",
    "Sinab.C86_sheet",
    "Sinab.C86_any_meaning",
    "Sinab.C86_dropped",
    "Sinab.C86_unreadable",
    "Sinab.C86_unreadable_sheet",
    "Sinab.C86_rendered",
    "Sinab.C86_dropped_rendered"
   ],
   "note": ""
  },
  {
   "property": "C87",
   "status": "proved",
   "theorems": [
    "Sinab.C87_element",
    "Sinab.C87_page",
    "Sinab.C87_dead",
    "Sinab.C87_order",
    "Sinab.C87_disjoint",
    "Sinab.C87_group"
   ],
   "note": ""
  },
  {
   "property": "C88",
   "status": "partial",
   "theorems": [
    "Sinab.C88_layout",
    "Sinab.C88_same_partial",
    "Sinab.C88_document_partial",
    "Sinab.C88_full_false"
   ],
   "note": "False of the code: C88_full_false (a box placed by `right` moves to the right when the page gets higher, the mistake of C43). C88_layout: exactly what changes, for trees of boxes, `right` included; C88_same_partial, C88_document_partial: nothing changes if no such box is placed by `right` without `left` or `bottom` without `top`."
  },
  {
   "property": "C89",
   "status": "proved",
   "theorems": [
    "Sinab.C89_fewest",
    "Sinab.C89_reached",
    "Sinab.C89_wider",
    "Sinab.C89_all_lines_false"
   ],
   "note": "That a text has no more lines at all in a wider container is false (C89_all_lines_false): the newline behind a word that is too long is dropped like a space, so a narrow container has no empty line at the end where a wider one has one."
  },
  {
   "property": "C90",
   "status": "proved",
   "theorems": [
    "Sinab.C90_fonts",
    "Sinab.C90_document",
    "Sinab.C90_style",
    "Sinab.C90_content",
    "Sinab.C90_render",
    "Sinab.C90_add",
    "Sinab.C90_change"
   ],
   "note": "C90_fonts shows that the fonts made from R's metrics do not depend on colours, which the other theorems assume of the device."
  },
  {
   "property": "C91",
   "status": "proved",
   "theorems": [
    "Sinab.C91_document",
    "Sinab.C91_laid_out",
    "Sinab.C91_selectors",
    "Sinab.C91_drawing",
    "Sinab.C91_same"
   ],
   "note": "C91_document and C91_laid_out are about the content that the documents give to their elements (with styles), as white space between elements can change what `:empty` matches; C91_drawing and C91_same are about texts passed to the renderer in which only existing white space is written differently."
  },
  {
   "property": "C92",
   "status": "partial",
   "theorems": [
    "Sinab.C92_lines_partial",
    "Sinab.C92_height_partial",
    "Sinab.C92_page_partial",
    "Sinab.C92_full_false"
   ],
   "note": "False as stated: a space at the end of a run of text is dropped where it does not fit, and then a word that is narrower than a space still fits behind it, so that the wider page has one line more (`C92_full_false`). Proved for texts of words separated by single spaces without hyphens and line breaks, where no word is narrower than a space and each fits the narrow page with a space in front, in inline elements without horizontal margins, borders and padding (`inlineEven`); for heights, texts of one paragraph also have the same line height and baseline (`inlineLevel`), and for pages, no vertical margin, border or padding is a percentage (`Steady`)."
  },
  {
   "property": "C93",
   "status": "proved",
   "theorems": [
    "Sinab.C93_layout",
    "Sinab.C93_drawn",
    "Sinab.C93_document"
   ],
   "note": "`Edited` describes two box trees that differ in the contents of one inline formatting context. `rest` are the marks after the nearest block around the paragraph whose height does not depend on its content; there are none if all heights are `auto`."
  },
  {
   "property": "C94",
   "status": "proved",
   "theorems": [
    "Sinab.C94_texts",
    "Sinab.C94_seen",
    "Sinab.C94_heights_false",
    "Sinab.C94_borders_false",
    "Sinab.C94_document_texts",
    "Sinab.C94_document_seen"
   ],
   "note": "`Grouped` describes the two box trees, `GroupedContent` the two documents. `C94_heights_false` and `C94_borders_false` show that the two conditions cannot be dropped: in the code a percentage height inside a block of automatic height counts as `auto`, and a negative padding cancels a border when it is decided whether a block is collapsed through."
  },
  {
   "property": "C95",
   "status": "partial",
   "theorems": [
    "Sinab.C95_flow",
    "Sinab.C95_document_partial",
    "Sinab.C95_full_false"
   ],
   "note": "For box trees the claim is proved without restriction (`C95_flow`; `Pruned` describes the two trees, `flowParts` is what is in the flow). For documents it is proved for elements that stand next to a block or at the end of an element (`nextToBlock`). Among words it is false of the code (`C95_full_false`): text before and after the element is not joined, so that a line may end within a word there."
  },
  {
   "property": "C96",
   "status": "partial",
   "theorems": [
    "Sinab.C96_flow",
    "Sinab.C96_document_partial",
    "Sinab.C96_full_false"
   ],
   "note": "For box trees the claim is proved without restriction (`C96_flow`; `Spanned` describes the two trees, `DrawCall.isMark` are the calls that draw something). For documents it is proved for places where the element does not cut a text in two and does not begin with white space that follows text (`spanPlace`). In the middle of text it is false of the code (`C96_full_false`): texts on both sides are not joined, so that a line may end within a word there."
  },
  {
   "property": "C97",
   "status": "proved",
   "theorems": [
    "Sinab.C97_block",
    "Sinab.C97_document",
    "Sinab.C97_heights_false"
   ],
   "note": "`C97_block` for box trees, with all calls of the device (also the ones that only record the extent), `C97_document` for documents, with those that draw something. `C97_heights_false`: the condition on the height is needed."
  },
  {
   "property": "C98",
   "status": "proved",
   "theorems": [
    "Sinab.C98_page",
    "Sinab.C98_relative",
    "Sinab.C98_document",
    "Sinab.C98_across_false"
   ],
   "note": "`C98_page` and `C98_relative` for box trees, `C98_document` for documents. In `C98_relative` the height of the page for comparison is not given explicitly: it is the used height of the containing block. `C98_across_false`: the condition on `left` and `right` is needed, since such a box extends from its static position to the right edge."
  },
  {
   "property": "C99",
   "status": "proved",
   "theorems": [
    "Sinab.C99_blocks",
    "Sinab.C99_order",
    "Sinab.C99_document",
    "Sinab.C99_held_false"
   ],
   "note": "`C99_blocks` and `C99_order` for box trees, `C99_document` for documents. `C99_held_false`: without the condition on positioned boxes the order of what is drawn is another one. In `C99_document` the distances are not said to depend on the elements before only, because the margins of all elements may collapse with those of the blocks around them."
  },
  {
   "property": "C100",
   "status": "partial",
   "theorems": [
    "Sinab.C100_newline_partial",
    "Sinab.C100_document_partial",
    "Sinab.C100_full_false",
    "Sinab.C100_breaks_partial",
    "Sinab.C100_lines_partial",
    "Sinab.C100_height_partial"
   ],
   "note": "The theorems require that each word in front of a line break fits on a line, if lines are broken there: `C100_newline_partial` (boxes), `C100_lines_partial` and `C100_height_partial` (texts with any number of newlines), `C100_document_partial` and `C100_breaks_partial` (documents). `C100_full_false`: behind a word that is too long for a line the forced break is lost, and what follows is put on the same line."
  }
 ]
}