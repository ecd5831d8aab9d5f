import Verif.Spec.Boxes
import Verif.Model.Paint

/-! Magnification: all lengths of styles, fonts, boxes, fragments and of what is drawn are multiplied by a factor
(C81).  Percentages, numbers and texts stay as they are; colours and border styles stay as they are (C81) or are replaced
by others (C90). -/

namespace Sinab

/-- a magnification: a factor, what becomes of the graphics contexts of fonts, and of colours and border styles -/
structure Zoom where
  k : ℚ
  pos : 0 < k
  gc : GCtx → GCtx
  paint : (p : Longhand) → p.Comp → p.Comp := fun _ v => v
  paint_initial : ∀ p, paint p p.initial = p.initial := by intro _; rfl

namespace Zoom

variable (z : Zoom)

/-- a length or `auto` -/
def la : LengthOrAuto → LengthOrAuto
  | .length l => .length (z.k * l)
  | .auto => .auto

/-- a length or percentage -/
def lp : LengthOrPercentage → LengthOrPercentage
  | .length l => .length (z.k * l)
  | .percentage p => .percentage p

/-- a length, a percentage or `auto` -/
def lpa : LengthOrPercentageOrAuto → LengthOrPercentageOrAuto
  | .length l => .length (z.k * l)
  | .percentage p => .percentage p
  | .auto => .auto

/-- a length, a percentage or a number -/
def lpn : LengthOrPercentageOrNumber → LengthOrPercentageOrNumber
  | .length l => .length (z.k * l)
  | .percentage p => .percentage p
  | .number n => .number n

/-- a vertical alignment -/
def align : VerticalAlign → VerticalAlign
  | .length l => .length (z.k * l)
  | v => v

/-- the value of a property -/
def value : (p : Longhand) → p.Comp → p.Comp
  | .fontSize, v => z.k * (v : ℚ)
  | .lineHeight, v => z.lpn v
  | .verticalAlign, v => z.align v
  | .top, v | .left, v | .bottom, v | .right, v | .width, v | .height, v
  | .marginTop, v | .marginRight, v | .marginBottom, v | .marginLeft, v => z.lpa v
  | .paddingTop, v | .paddingRight, v | .paddingBottom, v | .paddingLeft, v
  | .borderTopWidth, v | .borderRightWidth, v | .borderBottomWidth, v | .borderLeftWidth, v => z.lp v
  | .fontStyle, v | .fontWeight, v | .fontFamily, v | .textAlign, v | .whiteSpace, v | .position, v
  | .float, v | .display, v => v
  | .color, v => z.paint .color v
  | .backgroundColor, v => z.paint .backgroundColor v
  | .borderTopColor, v => z.paint .borderTopColor v
  | .borderRightColor, v => z.paint .borderRightColor v
  | .borderBottomColor, v => z.paint .borderBottomColor v
  | .borderLeftColor, v => z.paint .borderLeftColor v
  | .borderTopStyle, v => z.paint .borderTopStyle v
  | .borderRightStyle, v => z.paint .borderRightStyle v
  | .borderBottomStyle, v => z.paint .borderBottomStyle v
  | .borderLeftStyle, v => z.paint .borderLeftStyle v

/-- colours and border styles stay as they are -/
def KeepsColours : Prop := ∀ p v, z.paint p v = v

/-- a style -/
def style (s : Style) : Style := ⟨fun p => z.value p (s.val p), s.specifiedDisplay⟩

/-- a font -/
def font (f : Font) : Font := ⟨z.k * f.size, z.k * f.ascent, z.k * f.descent, z.k * f.spaceAdvanceWidth, z.gc f.gc⟩

/-- The fonts of one device are those of another, magnified. -/
structure Fonts (E E' : TextEnv) : Prop where
  font : ∀ s, E'.font (z.style s) = z.font (E.font s)
  width : ∀ f t, E'.width (z.font f) t = z.k * E.width f t

/-- the size of a page -/
def psize (v : PVec2 Length) : PVec2 Length := ⟨z.k * v.x, z.k * v.y⟩

/-- what is drawn -/
def call : DrawCall → DrawCall
  | .text label x y f color => .text label (z.k * x) (z.k * y) (z.gc f) color
  | .rect x y w h fill => .rect (z.k * x) (z.k * y) (z.k * w) (z.k * h) fill
  | .line ps color w st => .line (ps.map fun p => (z.k * p.1, z.k * p.2)) color (z.k * w) st
  | .bbox x y w h => .bbox (z.k * x) (z.k * y) (z.k * w) (z.k * h)

mutual

/-- the boxes of a block container -/
def container : BlockContainer → BlockContainer
  | .blockLevelBoxes bs => .blockLevelBoxes (blocks bs)
  | .inlineFormattingContext st bs => .inlineFormattingContext (z.style st) (inlines bs)

/-- a block formatting context -/
def bfc : Bfc → Bfc
  | .mk c f => .mk (container c) f

/-- a block-level box -/
def block : BlockLevelBox → BlockLevelBox
  | .sameFormattingContextBlock st c => .sameFormattingContextBlock (z.style st) (container c)
  | .outOfFlowAbsolutelyPositionedBox st c => .outOfFlowAbsolutelyPositionedBox (z.style st) (bfc c)
  | .outOfFlowFloatBox st c => .outOfFlowFloatBox (z.style st) (bfc c)
  | .independent st c => .independent (z.style st) (bfc c)

/-- block-level boxes -/
def blocks : List BlockLevelBox → List BlockLevelBox
  | [] => []
  | b :: bs => block b :: blocks bs

/-- an inline-level box -/
def inline : InlineLevelBox → InlineLevelBox
  | .inlineBox st first last cs => .inlineBox (z.style st) first last (inlines cs)
  | .textRun st t f => .textRun (z.style st) t (z.font f)
  | .outOfFlowAbsolutelyPositionedBox st c => .outOfFlowAbsolutelyPositionedBox (z.style st) (bfc c)
  | .outOfFlowFloatBox st c => .outOfFlowFloatBox (z.style st) (bfc c)

/-- inline-level boxes -/
def inlines : List InlineLevelBox → List InlineLevelBox
  | [] => []
  | b :: bs => inline b :: inlines bs

end

mutual

/-- the content of a document -/
def styled : Styled → Styled
  | .other => .other
  | .hidden i => .hidden i
  | .text st t => .text (z.style st) t
  | .contents i ks => .contents i (styledAll ks)
  | .elem i st o ins ks => .elem i (z.style st) o ins (styledAll ks)

/-- a list of content -/
def styledAll : List Styled → List Styled
  | [] => []
  | c :: cs => styled c :: styledAll cs

end

end Zoom

end Sinab
