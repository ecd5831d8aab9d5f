import Verif.Model.Geom
import Verif.Model.Segment

/-! `layout/fragments.rs` and the containing blocks of `layout/mod.rs`. -/

namespace Sinab

/-- `CollapsedMargin` (layout/fragments.rs 35-39) -/
structure CollapsedMargin where
  maxPositive : Length
  minNegative : Length
  deriving DecidableEq, Repr

namespace CollapsedMargin

/-- layout/fragments.rs 135-140 -/
def zero : CollapsedMargin := ⟨0, 0⟩

/-- layout/fragments.rs 142-147 -/
def new (margin : Length) : CollapsedMargin := ⟨max margin 0, min margin 0⟩

/-- `adjoin` and `adjoin_assign` (layout/fragments.rs 149-158) -/
def adjoin (a b : CollapsedMargin) : CollapsedMargin :=
  ⟨max a.maxPositive b.maxPositive, min a.minNegative b.minNegative⟩

/-- layout/fragments.rs 160-162 -/
def solve (m : CollapsedMargin) : Length := m.maxPositive + m.minNegative

end CollapsedMargin

/-- `CollapsedBlockMargins` (layout/fragments.rs 28-33) -/
structure CollapsedBlockMargins where
  collapsedThrough : Bool
  start : CollapsedMargin
  «end» : CollapsedMargin
  deriving DecidableEq, Repr

namespace CollapsedBlockMargins

/-- layout/fragments.rs 117-123 -/
def fromMargin (margin : Sides Length) : CollapsedBlockMargins :=
  ⟨false, .new margin.blockStart, .new margin.blockEnd⟩

/-- layout/fragments.rs 125-131 -/
def zero : CollapsedBlockMargins := ⟨false, .zero, .zero⟩

end CollapsedBlockMargins

/-- `Fragment`, `BoxFragment`, `AnonymousFragment`, `TextFragment`
(layout/fragments.rs 4-54).  The geometry of a box (`content_rect`, `padding`,
`border`, `margin`) is a `BoxGeom`. -/
inductive Fragment where
  | box (style : Style) (geom : BoxGeom) (margins : CollapsedBlockMargins)
      (children : List Fragment)
  | anonymous (rect : Rect Length) (children : List Fragment) (mode : Mode)
  | text (parentStyle : Style) (contentRect : Rect Length) (text : ShapedSegment)

/-- `no_op` (layout/fragments.rs 57-63) -/
def Fragment.noOp (mode : Mode) : Fragment := .anonymous Rect.zero [] mode

/-- moves a rectangle in block direction -/
def Rect.addBlock (r : Rect Length) (b : Length) : Rect Length :=
  { r with startCorner := { r.startCorner with block := r.startCorner.block + b } }

/-- `translate_block` (layout/fragments.rs 168-180) -/
def Fragment.translateBlock (b : Length) : Fragment → Fragment
  | .box s g m cs => .box s { g with contentRect := g.contentRect.addBlock b } m cs
  | .anonymous r cs m => .anonymous (r.addBlock b) cs m
  | .text s r t => .text s (r.addBlock b) t

/-- `ContainingBlock` (layout/mod.rs 94-98) -/
structure ContainingBlock where
  inlineSize : Length
  blockSize : LengthOrAuto
  mode : Mode
  deriving DecidableEq, Repr

/-- `DefiniteContainingBlock` (layout/mod.rs 100-103) -/
structure DefiniteContainingBlock where
  size : Vec2 Length
  mode : Mode
  deriving DecidableEq, Repr

/-- `adjust` inside `relative_adjustement` (layout/mod.rs 114-120) -/
def relativeAdjust (start «end» : LengthOrAuto) : Length :=
  match start, «end» with
  | .auto, .auto => 0
  | .auto, .length e => -e
  | .length s, _ => s

/-- `relative_adjustement` (layout/mod.rs 106-130) -/
def relativeAdjustement (style : Style) (inlineSize : Length) (blockSize : LengthOrAuto) :
    Vec2 Length :=
  if !Position.isRelativelyPositioned (style.val .position) then Vec2.zero
  else
    let blockSize := blockSize.autoIs 0
    let o := style.boxOffsets.mapInlineAndBlockAxes
      (fun v => v.percentageRelativeTo inlineSize) (fun v => v.percentageRelativeTo blockSize)
    { inline := relativeAdjust o.inlineStart o.inlineEnd
      block := relativeAdjust o.blockStart o.blockEnd }

/-- `FlowChildren` (layout/flow/mod.rs 40-44) -/
structure FlowChildren where
  fragments : List Fragment
  blockSize : Length
  margins : CollapsedBlockMargins

end Sinab
