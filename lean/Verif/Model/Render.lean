import Verif.Model.Paint
import Verif.Model.Construct

/-! `render_html`, `sinab_test_renderer`, `C_render_markdown`: from the arguments of the R
function to the drawing primitives. -/

namespace Sinab

/-- The parts of a rendering that are not code of this repository.

* `markdown`: `pulldown_cmark` with tables (markdown.rs 19-31), which may panic;
* `html`: the calls that `html5ever` makes on the tree sink for a text (dom/html.rs 9-18).
  The answers of the sink to the parser (handles, element names) are determined by the calls
  made before, hence the calls are a function of the text.  `html5ever` may panic itself;
* `css`: tokenizer and selector parser of a style sheet;
* `attr`: tokenizer of a `style` attribute;
* `colors`: color syntax;
* `userAgent`: the parsed user agent style sheet (style/cascade.rs 16-22);
* `env`: font metrics from R. -/
structure Externals where
  engine : SelectorEngine
  markdown : Text → Except Panic Text
  html : Text → Except Panic (List Doc.SinkOp)
  css : Text → List (RawRule engine)
  attr : AttrTokenizer
  colors : CssColors
  userAgent : StyleSet engine
  env : TextEnv

/-- the calls of the parser on the tree sink (dom/html.rs 9-18) -/
def Doc.runSink : Doc → List Doc.SinkOp → Except Panic Doc
  | d, [] => .ok d
  | d, op :: ops => do
    let d ← d.sinkStep op
    d.runSink ops

variable (X : Externals)

/-- `Document::parse_html` (dom/html.rs 9-18) -/
def Externals.parseHtml (html : Text) : Except Panic Doc := do
  let ops ← X.html html
  Doc.new.runSink ops

/-- `Document::parse_stylesheets` (dom/mod.rs 48-66) -/
def Externals.parseStylesheets (d : Doc) (userCss : Option Text) :
    Except Panic (StyleSet X.engine) := do
  let texts ← d.stylesheetTexts d.len userCss
  let s ← StyleSet.addStylesheets X.colors ⟨[]⟩ (texts.map X.css)
  return s.finish

mutual

/-- some text of a fragment contains a NUL character -/
def Fragment.hasNul : Fragment → Bool
  | .text _ _ t => t.glyphs.contains '\x00'
  | .box _ _ _ cs => hasNulAll cs
  | .anonymous _ cs _ => hasNulAll cs

/-- some text of the fragments contains a NUL character -/
def hasNulAll : List Fragment → Bool
  | [] => false
  | f :: fs => f.hasNul || hasNulAll fs

end

/-- `Document::layout` (layout/flow/root.rs 4-10, 17-30).  The measure of text in
`Model/Segment.lean` is total; the code measures text with a C string made from it
(graphics_engine/font.rs 36, from layout/flow/inline.rs 422, 451, 520) and panics for text with a NUL character.
This happens during layout for all text that ends up in a fragment, hence is checked here at
the end of layout: it does not matter at which moment of layout it panics. -/
def Externals.layoutDoc (fuel : Nat) (d : Doc) (size : PVec2 Length) (userCss : Option Text) :
    Except Panic (List Fragment) := do
  let author ← X.parseStylesheets d userCss
  let root ← boxTree (.of X.colors X.attr X.userAgent author d X.env) fuel
  let fs ← rootLayout X.env root size
  if hasNulAll fs then .error .interiorNul else .ok fs

/-- `render_html` up to painting (paint.rs 12, 201-202): parsing, styling and layout -/
def Externals.layoutHtml (fuel : Nat) (html css : Text) (size : PVec2 Length) :
    Except Panic (List Fragment) := do
  let d ← X.parseHtml html
  X.layoutDoc fuel d size (some css)

/-- `render_html` (paint.rs 201-208, 11-31) -/
def Externals.renderHtml (fuel : Nat) (html css : Text) (size : PVec2 Length) : Trace :=
  .after (X.layoutHtml fuel html css size) (paintPage size)

/-- `cstring_to_str` (utils/c_helper.rs 7-14): `none` is the null pointer; the result is
`none` for `Err(Utf8Error)`. -/
def cstringToStr : Option ByteArray → Except Panic (Option Text)
  | none => .error .assertion
  | some bytes => .ok ((String.fromUTF8? bytes).map String.toList)

/-- The failures that `catch_unwind` stops: Rust panics.  Not an abort of the process, not
an endless loop, and not the errors raised in C code, which do not unwind. -/
def Panic.caught : Panic → Bool
  | .abort | .outOfFuel | .vectorBounds | .bufferOverflow | .useAfterFree => false
  | _ => true

/-- `sinab_test_renderer` (test.rs 11-37): the device afterwards, and whether an error was
printed.  `.error` means that control does not return to C normally: the conversions
before `catch_unwind` (20-27) panicked, or `Panic.caught` does not hold. -/
def Externals.testRenderer (fuel : Nat) (d : RDev) (text css : Option ByteArray)
    (size : PVec2 Length) : Except Panic (RDev × Bool) := do
  let html ← match ← cstringToStr text with
    | some s => X.markdown s
    | none => .ok []
  let css := (← cstringToStr css).getD []
  let t := X.renderHtml fuel html css size
  match d.perform t.calls t.panic with
  | (d, none) => return (d, false)
  | (d, some p) => if p.caught then return (d, true) else .error p

/-- `C_render_markdown` (src/render_markdown.c 9-29).  The arguments are the elements of
the two character vectors as UTF-8 (`Rf_translateCharUTF8` never returns null), and the
size in inches. -/
def Externals.renderMarkdown (fuel : Nat) (text css : List ByteArray) (width height : ℚ) :
    Except Panic Released := do
  let d := RDev.new 0
  match text, css with
  | t :: _, c :: _ =>
    let (d, _) ← X.testRenderer fuel d (some t) (some c) ⟨width * 96, height * 96⟩
    d.release
  | _, _ => d.release

end Sinab
