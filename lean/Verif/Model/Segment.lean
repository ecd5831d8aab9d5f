import Verif.Model.Font
import Verif.Model.Style

/-! `graphics_engine/shaped_segment.rs` and the choice of a font for a style. -/

namespace Sinab

/-- The family name handed to R (graphics_engine/font.rs 121-127) -/
def FontFamily.rName : FontFamily → String
  | .genericSans => "sans"
  | .genericSerif => "serif"
  | .genericMonospace => "mono"
  | .familyName s => String.ofList s
  | .genericCursive | .genericFantasy => "sans"

/-- `Font::new_from_computed_values` (graphics_engine/font.rs 120-134) -/
def Font.newFromComputedValues (R : Metrics) (s : Style) : Except Panic Font :=
  Font.new R (FontFamily.rName (s.val .fontFamily)) (s.val .fontStyle) (s.val .fontWeight)
    (s.val .fontSize)

/-- What layout knows about fonts: the font of a style and the width of a text in a
font.  Simplification: both are total functions, i.e. the layout model leaves out
the aborts of `Font::new` (family name with NUL or longer than 200 bytes, see C06)
and of `string_metrics` (text with NUL; the HTML tokenizer never emits NUL). -/
structure TextEnv where
  font : Style → Font
  width : Font → Text → Length

/-- The environment given by R's font metrics, where nothing aborts. -/
def TextEnv.ofMetrics (R : Metrics) (dflt : Font) : TextEnv where
  font s := match Font.newFromComputedValues R s with
    | .ok f => f
    | .error _ => dflt
  width f t := 96 * (R f.gc (String.ofList t)).width

/-- number of UTF-8 bytes, `String::len` -/
def utf8Len : Text → Nat
  | [] => 0
  | c :: cs => c.utf8Size + utf8Len cs

/-- `String::truncate`: no effect beyond the end, aborts inside a character. -/
def truncateBytes : Nat → Text → Except Panic Text
  | _, [] => .ok []
  | n, c :: cs =>
    if n = 0 then .ok []
    else if c.utf8Size ≤ n then do
      let cs ← truncateBytes (n - c.utf8Size) cs
      return c :: cs
    else .error .panicked

/-- `ShapedSegment` (graphics_engine/shaped_segment.rs 9-16) -/
structure ShapedSegment where
  font : Font
  glyphs : Text
  advanceWidth : Option Length
  deriving DecidableEq, Repr

/-- `ShapedSegmentState` (graphics_engine/shaped_segment.rs 18-21) -/
structure SegState where
  glyphs : Nat
  advanceWidth : Option Length
  deriving DecidableEq, Repr

namespace ShapedSegment

/-- shaped_segment.rs 37-43 -/
def new (font : Font) : ShapedSegment := ⟨font, [], none⟩

/-- `append_char` (shaped_segment.rs 49-57) -/
def appendChar (s : ShapedSegment) (ch : Char) : ShapedSegment :=
  { s with advanceWidth := none, glyphs := s.glyphs ++ [ch] }

/-- `append` (shaped_segment.rs 45-47) -/
def append (s : ShapedSegment) (t : Text) : ShapedSegment := t.foldl appendChar s

/-- `shape` (shaped_segment.rs 31-35) -/
def shape (t : Text) (font : Font) : ShapedSegment := (new font).append t

/-- `strip_space` (shaped_segment.rs 60-65) -/
def stripSpace (s : ShapedSegment) : ShapedSegment :=
  if s.glyphs.getLast? = some ' ' then
    { s with advanceWidth := none, glyphs := s.glyphs.dropLast }
  else s

/-- `save` (shaped_segment.rs 67-72) -/
def save (s : ShapedSegment) : SegState := ⟨utf8Len s.glyphs, s.advanceWidth⟩

/-- `restore` (shaped_segment.rs 74-77) -/
def restore (s : ShapedSegment) (st : SegState) : Except Panic ShapedSegment := do
  let glyphs ← truncateBytes st.glyphs s.glyphs
  return { s with glyphs := glyphs, advanceWidth := st.advanceWidth }

/-- `get_advance_width` (shaped_segment.rs 79-88) -/
def getAdvanceWidth (E : TextEnv) (s : ShapedSegment) : Length × ShapedSegment :=
  match s.advanceWidth with
  | some l => (l, s)
  | none =>
    let width := E.width s.font s.glyphs
    (width, { s with advanceWidth := some width })

/-- `empty` (shaped_segment.rs 91-93) -/
def empty (s : ShapedSegment) : Bool := utf8Len s.glyphs = 0

end ShapedSegment

end Sinab
