# Formal model of sinab — design

`/repo` is an HTML/CSS text renderer for R: an arena DOM filled by an HTML
parser, a small CSS engine, CSS box construction, block and inline layout,
painting, and a C render device.  The model is written in Lean 4 under
`lean/Verif`, the claims are in `properties.jsonl`, the map claim → theorems is
in `MANIFEST.json`, the attempts to break the theorems with wrong programs are in
`seeded/LOG.jsonl`.

Layout of the Lean project

* `Verif/Model/*.lean`   – definitions transcribed from `/repo`; each carries file and lines.
* `Verif/Spec/*.lean`    – vocabulary of the statements, independent of the model's helpers.
* `Verif/Lemmas/*.lean`  – helper lemmas.
* `Verif/Props/*.lean`   – the property theorems (`C01_…`), and beside each an `example`
  with a concrete instance.

Naming: `Cnn_…` are theorems of property `Cnn`.  `Cnn_full` is the statement of the
property where the code does not satisfy it, `Cnn_full_false` its refutation with a
witness, `…_partial` what is proved instead.

## Modelling conventions

* Rust `panic!`/`assert!`/`unwrap`/index failures, `RefCell` borrow failures and process
  aborts are explicit error values (`Except Panic`); `&mut` functions return the new state.
* `while let`/`loop` are structural recursion if possible, else functions with fuel and a
  theorem about sufficient fuel (`C46_terminates`, `C42_layout_completes`,
  `C37_completes…`), or about endless loops for every fuel where the code does not terminate.
* `Length` and other `f32`/`f64` numbers are exact rationals `ℚ`.  Rounding, overflow, NaN
  and signed zero are not modelled.  This is the main idealisation: equations of lengths
  hold exactly in the model and up to rounding in the program; comparisons with 0
  (`pb.block_start == 0`, `size > available`) may differ for values that differ by rounding.
* `Rc`/`Arc` sharing of immutable data is value identity.  Sharing of mutable data (graphics
  contexts, layout-box slots, the copy-on-write structs of computed values) is modelled with an
  explicit heap.
* Font metrics are a parameter: an arbitrary function from text to width and arbitrary
  ascent/descent/x-height numbers (no monotonicity or additivity is assumed; theorems that
  need `width "" = 0` or non-negative widths say so).

## What is modelled

| module | code | left out or simplified |
|--------|------|------------------------|
| Model/Device | src/render_device.c, graphics_engine/renderer.rs 261-334 | R-level objects are values here; memory is the subject of Model/RHeap |
| Model/RHeap | src/r_callbacks.c, src/render_device.c with R's memory: objects, protection stack, preserved objects, `Calloc`/`Free`, a garbage collector that may reclaim any unreachable objects at every allocation, symbol lookup or evaluation | R's own functions (`eval`, `findFun`, …) are assumed to succeed and to return a new object that remembers the call; symbols, functions and namespaces are never reclaimed; vectors of numbers are allocated with their contents; the write barrier, reference counts and `longjmp` on R errors are not modelled; gpar_empty and the test functions are left out |
| Model/GContext | src/gcontext.c, graphics_engine/renderer.rs 1-258, r_callbacks.c `gpar_gcontext` | `grid::gpar` itself |
| Model/Color | primitives.rs | – |
| Model/Geom | geom.rs, primitives.rs | – |
| Model/Dom | dom/mod.rs, dom/html.rs | the parser: any list of tree-sink calls is considered; quirks mode; XML (dom/xml.rs is commented out) |
| Model/Selectors | style/selectors.rs (`Element` impl) | — |
| Model/SelectorMatch | the use the `selectors` crate (external) makes of this impl: compound and complex selectors, combinators, nth-counting, specificity | the pruning of hopeless alternatives in the crate's backtracking; bloom filters; caches. The other models use an abstract `SelectorEngine`, of which this is one instance |
| Model/UserAgent | style/user_agent.css, `USER_AGENT_STYLESHEET` (style/cascade.rs 16-22) | the tokens of the sheet are transcribed by hand, its tokenizer is external |
| Model/Values | style/values/*.rs, sinab-derive | cssparser's tokenizer: values are lists of abstract tokens; colour syntax is a parameter |
| Model/Derive | sinab-derive/src/style.rs, sinab-derive/src/generic.rs | Rust's grammar: declarations are given as syntax trees, field types by name; `where` clauses added to the generated `impl`s |
| Model/Length | style/values/length.rs | – |
| Model/Style | style/properties/*.rs, declaration_block.rs, cascade.rs, rules.rs | style-sheet level syntax (at-rules, selector lists) is a parameter `css : Text → List RawRule` (see Model/SheetSyntax) |
| Model/SheetSyntax | style/rules.rs, style/cascade.rs 31-46, style/declaration_block.rs 17-48 with the loops of cssparser 0.27 (external) | characters to tokens; the selector parser is a parameter |
| Model/JumpTable | utils/tagged_union_with_jump_tables.rs, its uses in style/properties/macros.rs | values are bytes in memory; the layout of types is the documented one; macro checks are functions to `Option` |
| Model/StyleHeap | `ComputedValues` in memory: style/properties/macros.rs 37-234, style/properties/mod.rs 22-30, style/values/box_.rs 67-75 | one thread; reference counts do not overflow; `Arc<ComputedValues>` itself is a style that is held or not; weak references are not used in the code |
| Model/Boxes, Construct | layout/dom_traversal.rs, element_data.rs, flow/construct.rs, flow/root.rs, replaced.rs | pseudo-elements (`pseudo_element_style` is constantly `None`), replaced content (uninhabited), rayon-free sequential execution as in the code |
| Model/Font, Segment | graphics_engine/font.rs, shaped_segment.rs | `TextEnv` is total: the aborts of `Font::new` for family names (see C06) are not part of layout |
| Model/Inline | layout/flow/inline.rs | – |
| Model/Block, Fragments | layout/flow/mod.rs, layout/positioned.rs, layout/fragments.rs, layout/mod.rs, float.rs | – |
| Model/Paint | paint.rs | – |
| Model/Render | paint.rs `render_html`, test.rs, src/render_markdown.c, utils/c_helper.rs | printing of the error message; `pulldown_cmark`, `html5ever` are parameters that may panic |
| Model/Markdown | src/markdown.c, markdown.rs, utils/c_helper.rs, R/md-to-html.R | the converter itself (pulldown-cmark) is a parameter; R's allocators are assumed to succeed |
| Model/RenderCall | src/render_markdown.c with R's memory and arguments of any type, R/render-markdown.R | strings that are not UTF-8 are given by what `translateCharUTF8` makes of them; logical, complex, raw and S4 values are not represented (the C functions treat them like other values of the wrong type); R's own clean-up after an error (`raised`) is restoring the protection stack |
| Model/HtmlGrob | R/html_grob.R, R/grid-utils.R, R/render-markdown.R | grid: viewports without rotation and layout, units in inches, npc and sums of these; `grobTree`/`gTree` bookkeeping (names, gp) |

Not modelled at all: layout2.rs, text.rs and dom/xml.rs (commented out in full),
tests.

External crates are represented by the interface stated at the place of use: cssparser
tokenisation, selectors matching, html5ever tree construction, pulldown-cmark, the R
graphics engine.  Where a theorem depends on a property of such a component it is a
hypothesis of the theorem or a field of the structure that represents it.

## Trusted base

* The Lean 4.33.0 kernel.
* Axioms.  No axioms are added; there is no `sorry`, no `native_decide`, no `bv_decide`.
  `#print axioms` over the theorems listed in MANIFEST.json gives:
  * none: C07_sides, C07_sides_injective
  * `propext`: C07_size_roundtrip, C07_horizontal_ltr, C09_symmetric, C13_document, C31_orphan, C37_endless_loop, C90_change
  * `propext`, `Quot.sound`: C09_acyclic, C10_detach, C13_merge, C13_nodup, C13_lookup, C24_perm, C24_sorted, C29_partial, C31_parent, Jump.C76_compiles, Jump.C76_declarations, Derive.C85_distinct, Derive.C85_variants_compile, Derive.C85_into, C86_value, C87_dead, C87_order, C87_disjoint
  * `propext`, `Classical.choice`, `Quot.sound`: all other theorems (360)
* The reading of the statements (definitions in `Model` and `Spec`), in particular the
  correspondence of `Model` to `/repo`, which was made by reading; the code was not run.

## Properties that are false of the code

Each has a machine-checked refutation `Cnn_full_false`; what holds is proved beside it.

| id | what goes wrong |
|----|-----------------|
| C06 | a family name of 201 or more bytes overflows the C buffer |
| C14 | `reparent_children` moves only the first child (reads `next_sibling` after moving) |
| C16 | `display: block block` aborts: the value parser leaves tokens behind and the assertion of the declaration parser fails |
| C19 | negative padding, border width and font size are accepted |
| C20 | `border-right-color` is unknown (the table has `border-color-right`) |
| C21 | `font-family: x !important` is dropped |
| C29 | `class="a b"` does not match `.a` |
| C30 | `display: NONE` is dropped (derived keyword parsers compare case-sensitively) |
| C33 | `foo<em> bar</em>` is laid out as `foobar` |
| C36 | a block inside an inline element makes construction fail for all such content; with text before it the process aborts (panic while unwinding, caused by unfilled slots) |
| C37 | a `display: none` element that is a last child sends construction into an endless loop |
| C39 | with a given width and one given margin the other margin ignores it |
| C43 | the vertical axis is solved with the width of the containing block; with only `right` given the distance is measured from its height |
| C44 | a relatively positioned inline box loses its horizontal shift on lines after the first |
| C46 | a hyphen behind a word that is too long for a whole line is dropped |
| C47 | a hyphen at the end of a line is not counted, so a line may be too wide by it |
| C49 | a trailing space removed while a state is saved leaves a stale cached width |
| C58 | layout can give a block a negative width; the recorded margin box does not contain its background then |
| C59 | a second panic while unwinding ends the process; panics of the markdown converter are outside of `catch_unwind` |
| C61 | `foo<b>bar</b>` may be broken between `foo` and `bar`; a dropped space runs two words together |
| C62 | `line-height: normal` is dropped although documented |
| C64 | text behind a leading `<br>` is laid out in the style of `<br>` |
| C67 | `:first-of-type` aborts for every element with an earlier sibling (`is_same_type` is `todo!()`) |
| C70 | `hjust`/`vjust` move the text by multiples of the viewport's size instead of the text's, vertically to the wrong side |
| C71 | the room recorded for a text is too low by half the leading: the reported extent of a page is too high |
| C75 | larger text directly in a `display: contents` element is placed too low and drawn over the next line (`C75_contents_false`; excluded in the statement of C75) |
| C78 | a given height of 0 keeps the margins above and below an empty block apart (CSS 2.1: they adjoin) |
| C79 | a centred block that is too wide sticks out on the left; with only the left margin `auto` the right margin is ignored |
| C80 | a block added after lines in a block of given height: elements moved by a percentage of that height are no longer moved |
| C82 | `render_markdown("a", width_in = 5L)`: R error after the device has been made, which is never released; `width_in = numeric(0)`: read outside of the vector |
| C83 | `<p>a</p><script></script>` is not drawn (see C59); with a comment after it, it is |
| C88 | `right: 5px` on a page of width 100: the box moves 20 to the right if the height of the page is changed from 50 to 70 |
| C92 | `foo <b>i</b>` takes one line on a page where `foo` and `i` fit but `foo` and a space do not (the space is dropped), and two lines on a wider page where the space fits, too (inline.rs, layout of text runs) |
| C95 | `C95_full_false`: `ab<!-- --><abs>x</abs>cd` on a page of width 25, with `position: absolute` for `abs`: `cd` is on a second line; without the element, `abcd` is one word on one line. |
| C96 | `C96_full_false`: `ab<span>cd</span>` on a page of width 25: `cd` is on a second line; without the `span`, `abcd` is one word on one line. |
| C100 | a paragraph of width 35 with the word `abcdef` of width 60, a newline, and an inline element with text that is not wrapped: the text of the element is drawn at 60 on the line of the word instead of on a line of its own |

Further observations, not properties of their own:

* the static position of an absolutely positioned box inside a relatively positioned box
  with padding is off by the padding;
* a block with inline content never collapses through, even if it has no text;
* `is_same_type` is `todo!()`, so `:nth-of-type` panics;
* a trailing space at the end of a line stays out, leading ones are never laid out;
* C61: a run of text that starts with `-` after a dropped space is glued to the word before;
  an overlong word with a space at its end followed by a `nowrap` run is glued too.

## Property by property

| id | modelled | how proved |
|----|----------|------------|
| C01 | device state: buffer, size, capacity; add/grow/release | refinement to append-only list, induction over call list |
| C02 | bbox fold of min/max | invariant: least upper bound in the rectangle order; permutation invariance |
| C03 | RGBA Display | decoder + round trip for all bytes |
| C04 | fontface setter/getter state machine | invariant over setter histories |
| C05 | heap of reference-counted contexts with copy on write | simulation by independent values |
| C06 | strcpy to a 201 byte buffer | colour always fits; negation with a 201-character family name; partial for ≤ 200 bytes |
| C07 | geom conversions | case analysis |
| C08 | inflate and the three rects | arithmetic |
| C09 | arena DOM with five links per node | invariant relative to a children function + acyclicity |
| C10 | detach/append/insert_before | refinement to list edits |
| C11 | next_in_tree_order/nodes | equality with preorder of the abstract tree |
| C12 | append_common | list-level description of the resulting children |
| C13 | add_attrs_if_missing | lists |
| C14 | reparent_children | negation (witness), `_partial` for ≤ 1 child |
| C15 | create_element's recording, parse_stylesheets, child_text_content | lists |
| C16 | declaration-list loop over an abstract token type with cssparser's "value must be exhausted" rule | negation (abort), `_partial` |
| C17 | FourSides parser | parametric in the side parser |
| C18 | parse_one_or_more, BorderSide, expansion | all permutations, parametric |
| C19 | SpecifiedLength | arithmetic |
| C20 | property-name table | negation for border-right-color, `_partial` for the others |
| C21 | parse_value | negation for font-family, `_partial` for the rest |
| C22–C27 | property table, declarations, cascade, ComputedValues::new | refinement to "last declaration wins" specification |
| C28 | post_cascade_fixups, display | invariants of computed style |
| C29 | has_class | negation + `_partial` for one-class attributes |
| C30 | derive(Parse), length units | negation + `_partial` |
| C31 | Element impl navigation | via the children function of C09 |
| C32–C34 | text handling in box construction | lists of characters |
| C35, C36, C38 | BlockContainerBuilder | structural induction; negation for C36 |
| C37 | unset_boxes_in_subtree | non-termination witness; `_partial` |
| C39 | width resolution | arithmetic, negation + `_partial` |
| C40, C41 | CollapsedMargin, placement loop | algebra, loop invariant |
| C42, C45 | whole block layout with abspos lists | mutual induction over box trees |
| C43 | solve_axis | arithmetic, negation + `_partial` |
| C44 | relative_adjustement | arithmetic + comparison of placements |
| C46–C49 | ShapedSegment, layout_wrap, layout_nowrap | well-founded/fuel recursion, list invariants |
| C50–C54 | inline formatting context | state-machine invariants |
| C55–C58 | paint | structural induction on fragment trees |
| C59 | FFI wrapper | error monad |
| C60 | unit conversions | arithmetic |
| C61 | composition of construction, inline layout, paint | composition of C32, C46, C55 |
| C62 | value parsers on documented keywords | table of documented values, case analysis |
| C63 | layout_wrap | the first word of the next line would not have fitted |
| C64 | text handling and br | structural induction, negation + `_partial` |
| C65 | composition of construction, layout, paint with abspos | permutations of inked characters |
| C66 | r_callbacks.c, render_device.c with R's memory | weakest-precondition style rules over a heap with an adversarial collector |
| C67 | style/selectors.rs with the matching algorithm of the selectors crate | declarative selector semantics, induction on selectors; negation + `_partial` |
| C68 | user_agent.css through the cascade | the sheet as an explicit ordered rule list; composition of C22–C28 and C67 |
| C69 | src/markdown.c, markdown.rs | rules of C66, induction on the vector |
| C70 | R/html_grob.R | calculation; negation with a rendered witness + `_partial` |
| C71 | box construction, inline layout, block layout, paint, fonts | invariants of the box tree (style/font pairs) and of fragments (sizes); negation + `_partial` |
| C72 | root element, style sheets, box construction, layout, report to C | totality of each stage; `construct_iff` and C42; characters drawn come from text nodes |
| C73 | the same with user_agent.css | C72 and C68; induction over the styled content |
| C74 | backgrounds and borders of all elements, each part once | box tree contains each styled element once (Lemmas/DecorBoxes); induction over layout with a multiset of box parts (Lemmas/DecorLayout); page_own |
| C75 | texts in rows, left to right and top to bottom | texts have the font of their box (Lemmas/RowsBoxes); induction over inline and block layout: positions of texts within the line boxes, line boxes stacked, margins that collapse not negative (Lemmas/RowsLayout) |
| C76 | methods found through jump tables are those of the match | enums as bytes in memory; offsets of C structs do not overlap; induction over the variants for the table |
| C77 | sharing styles is not observable, nothing leaks | memory with reference counts; invariant: counts = numbers of pointers, initial values intact; each step of the cascade changes only structs with one pointer |
| C78 | vertical positions of all blocks | a walk down the page over margins and gaps as specification (Spec/Vertical); invariant of block placement: position and pending margins are those of the walk; induction over the layout; negation + `_partial` |
| C79 | left and right edges of all blocks | edges computed from the styles alone (Spec/Horizontal); induction over the layout; negation + `_partial` |
| C80 | content added at the end of a page or document | inductive relations between trees of boxes and between contents of documents (Spec/Append); box construction turns one into the other (Lemmas/AppendContent); induction over the layout, run of the line loop on a prefix of the boxes; negation + `_partial` |
| C81 | magnification of a page | `Zoom` multiplies all lengths of styles, fonts, boxes, content and drawing (Spec/Zoom); every function of box construction, layout and painting commutes with it (Lemmas/ZoomBoxes, Lemmas/Zoom) |
| C82 | `C_render_markdown` with R's memory and arguments of any type | Model/RenderCall on top of the memory model of C66/C69; run of the call with `Runs`; the calls of the trace keep the device in step with the device without memory; negation + `_partial` |
| C83 | whole pipeline, on two documents | relations `Alike`, `Counterpart` between documents (Spec/SameTree); steps of the element view give counterparts, loops of the matcher are simulated with different fuel (Lemmas/SameTree); content equal up to comments and node numbers gives equal boxes (Lemmas/SameContent); negation + `_partial` |
| C84 | cascade with the specificity of the crate `selectors` | the number used for sorting is shown to be the three counts (each below 1024) in base 1024, so that its order is the lexicographic one; `C84_rule` and `C84_attribute` then follow from the winner of the cascade (C23, C68) |
| C85 | sinab-derive as functions from declarations to parsers and converters | Model/Derive: `parse`, `fromSpecified`, `fromVariants` map a declaration to the generated function, which is then run; keywords are characterised by `Spelled` (Spec/Derive), reading by `Reads`; `C85_types` identifies the parsers of Model/Values with the derived ones |
| C86 | rules.rs, add_stylesheet, DeclarationBlock::parse with the loops of cssparser | Model/SheetSyntax on component values (blocks are trees); the grammar is given by pieces (Spec/SheetSyntax); by induction on the pieces the parser delivers the rules of the pieces, errors are filtered; insertion theorems follow by comparing the lists of rules |
| C87 | cascade, style sets and box tree on two style sheets | sorted lists with equal sublists for each key are equal; stable sort and filter by match commute, so that the matching blocks agree; then the style function of the box tree is the same function |
| C88 | root.rs, in-flow sizes, absolutely positioned boxes, painting | the height of the containing block enters in-flow layout only through percentages of `height`, hence the children of the root see the same containing block; for absolutely positioned boxes only the end anchors use it (`C88_layout`); which boxes belong to the page follows from the content (`onPage`) |
| C89 | text runs, line breaking | the lines of the code stay ahead of every other way of cutting (induction over the pieces of the other way) |
| C90 | cascade, box construction, layout, painting | colours are erased by a map on styles, contents, boxes and fragments with which the whole layout commutes; the cascade is followed declaration by declaration |
| C91 | reading of documents, selector matching, cascade, box construction, layout, painting | contents that differ in such white space go through the box builder in step (relation `Respaced`), the invariant being whether the builder is at a gap; documents with respelled texts have such contents (relation `Alike` of C83 with a relation between texts) |
| C92 | line breaking, inline layout, heights of lines, block layout, collapsing of margins | lines on the narrow and on the wide page run in step; invariant: the wide page is on an earlier line, or on the same line and not further right, or so far right that nothing fits any more. Heights follow as no line is empty; positions of blocks follow from C78 |
| C93 | block layout, collapsing of margins, inline layout, painting | placing of the fragments of a block container commutes with a change of the height of one of them (no margin depends on it, as a block with lines is never collapsed through); by induction over the blocks around the paragraph; painting of translated fragments is a translation of the calls |
| C94 | block layout, collapsing of margins, construction of boxes, painting | invariant of the placement of fragments: placing the children inside the wrapper and then the wrapper leads to the same state as placing the children directly, with the difference of the origins of both being added again by the translation of the wrapper; only marks with no extent (of blocks that are collapsed through) may differ; induction over the blocks around |
| C95 | block and inline layout, absolute positioning, construction of boxes, painting | simulation of the two layouts with different fuel and different child indices: the fragments differ by empty placeholders only, the placement state is the same after each child, static positions refer to the same fragments; the lists of waiting boxes differ by the removed ones; induction over the box tree |
| C96 | inline and block layout, absolute positioning, construction of boxes, painting | simulation of the two layouts: a line of the second page is the corresponding line of the first one with parts of it put in boxes with the same metrics, at offsets that add up to the same; breaking a line commutes with the boxes around; blocks by induction over the box tree; for documents, simulation of the box builder on content with and without the element |
| C97 | block and inline layout, absolute positioning, construction of boxes, painting | layout of a block does not depend on rank, found boxes and fuel: both results are thinner than the other one in the sense of C95, hence equal; placement moves a fragment only down; induction over the path from the page to the block; for documents, the box of an element is one of the boxes of the element around |
| C98 | block and inline layout, absolute positioning, construction of boxes, painting | what is found is positioned by its style (C43), so the two records of a box differ at most in the static block position and the rank; layout ignores the rank, and does not depend on fuel by C95 in both directions; induction over the path from the page to a relatively positioned block; for documents, the box of an element is in the list of its containing block |
| C99 | block layout and placement, construction of boxes, painting | layout of a block does not depend on the blocks before it (C95 in both directions); placement only moves a fragment down, by a distance that is a function of the fragments before it; painting commutes with such moves (C56); for documents, induction over the plain blocks around the elements |
| C100 | line breaking and line layout, construction of boxes, white space, painting | the lines of a paragraph are those of a function on text (C41, C42); this function restarts at a newline, by induction over the text in front of it; placement of lines and painting commute with a move down; for documents, the construction of the text run with the newline and induction over the plain blocks around it |
