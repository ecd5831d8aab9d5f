import Verif.Model.Paint
import Verif.Props.Geom

/-! Vocabulary for statements about painting. -/

namespace Sinab

/-! ## Fragments in tree order -/

/-- offset of a fragment (of its content area) in the fragment that contains it -/
def Fragment.offset : Fragment → PVec2 Length
  | .box _ g _ _ => ⟨g.contentRect.startCorner.inline, g.contentRect.startCorner.block⟩
  | .anonymous r _ _ => ⟨r.startCorner.inline, r.startCorner.block⟩
  | .text _ r _ => ⟨r.startCorner.inline, r.startCorner.block⟩

/-- a fragment without its children -/
def Fragment.alone : Fragment → Fragment
  | .box s g m _ => .box s g m []
  | .anonymous r _ m => .anonymous r [] m
  | .text s r t => .text s r t

mutual

/-- The fragments of a tree in tree order (a fragment before its children), each with the
fragments that contain it, outermost first; `anc` contain the whole tree. -/
def Fragment.places (anc : List Fragment) : Fragment → List (List Fragment × Fragment)
  | .box s g m cs => (anc, .box s g m cs) :: placesAll (anc ++ [.box s g m cs]) cs
  | .anonymous r cs m => (anc, .anonymous r cs m) :: placesAll (anc ++ [.anonymous r cs m]) cs
  | .text s r t => [(anc, .text s r t)]

/-- see `Fragment.places` -/
def placesAll (anc : List Fragment) : List Fragment → List (List Fragment × Fragment)
  | [] => []
  | f :: fs => f.places anc ++ placesAll anc fs

end

mutual

/-- no fragment has an unusual writing mode -/
def Fragment.upright : Fragment → Prop
  | .box _ _ _ cs => uprightAll cs
  | .anonymous _ cs m => m = (.horizontalTb, .ltr) ∧ uprightAll cs
  | .text .. => True

/-- see `Fragment.upright` -/
def uprightAll : List Fragment → Prop
  | [] => True
  | f :: fs => f.upright ∧ uprightAll fs

end

/-- sum of offsets -/
def sumOffsets : List Fragment → PVec2 Length
  | [] => ⟨0, 0⟩
  | f :: fs => f.offset + sumOffsets fs

/-- a containing block whose top left corner is at `o` (its size is of no importance) -/
def blockAt (o : PVec2 Length) : PRect Length := ⟨o, ⟨0, 0⟩⟩

/-! ## Primitives -/

/-- a primitive moved by `v` -/
def DrawCall.move (v : PVec2 Length) : DrawCall → DrawCall
  | .text t x y f c => .text t (x + v.x) (y + v.y) f c
  | .rect x y w h c => .rect (x + v.x) (y + v.y) w h c
  | .line ps c w s => .line (ps.map fun p => (p.1 + v.x, p.2 + v.y)) c w s
  | .bbox x y w h => .bbox (x + v.x) (y + v.y) w h

/-- kinds of calls -/
def DrawCall.isRect : DrawCall → Bool
  | .rect .. => true
  | _ => false

/-- kinds of calls -/
def DrawCall.isLine : DrawCall → Bool
  | .line .. => true
  | _ => false

/-- the text, font and colour of a drawn text -/
def DrawCall.text? : DrawCall → Option (String × GCtx × RGBA)
  | .text t _ _ f c => some (t, f, c)
  | _ => none

/-- the extreme points of what is drawn (without text): the corners of a rectangle, and the
corners of a horizontal or vertical line of the given width with flat ends -/
def DrawCall.extent : DrawCall → List (ℚ × ℚ)
  | .rect x y w h _ => [(x, y), (x + w, y), (x, y + h), (x + w, y + h)]
  | .line [p, q] _ w _ =>
    if p = q then [p]
    else if p.2 = q.2 then
      [(p.1, p.2 - w / 2), (p.1, p.2 + w / 2), (q.1, q.2 - w / 2), (q.1, q.2 + w / 2)]
    else [(p.1 - w / 2, p.2), (p.1 + w / 2, p.2), (q.1 - w / 2, q.2), (q.1 + w / 2, q.2)]
  | _ => []

/-! ## Areas of a box -/

/-- a rectangle on the page, by its edges -/
structure Area where
  left : ℚ
  top : ℚ
  right : ℚ
  bottom : ℚ
  deriving DecidableEq, Repr

/-- a point of an area -/
def Area.Has (a : Area) (p : ℚ × ℚ) : Prop :=
  a.left ≤ p.1 ∧ p.1 ≤ a.right ∧ a.top ≤ p.2 ∧ p.2 ≤ a.bottom

/-- the corners of an area -/
def Area.corners (a : Area) : List (ℚ × ℚ) :=
  [(a.left, a.top), (a.right, a.top), (a.left, a.bottom), (a.right, a.bottom)]

/-- The area of a box including padding and borders, in a containing block whose corner is
at `o`. -/
def BoxGeom.borderArea (g : BoxGeom) (o : PVec2 Length) : Area where
  left := o.x + g.contentRect.startCorner.inline - g.padding.inlineStart - g.border.inlineStart
  top := o.y + g.contentRect.startCorner.block - g.padding.blockStart - g.border.blockStart
  right := o.x + g.contentRect.startCorner.inline + g.contentRect.size.inline +
    g.padding.inlineEnd + g.border.inlineEnd
  bottom := o.y + g.contentRect.startCorner.block + g.contentRect.size.block +
    g.padding.blockEnd + g.border.blockEnd

/-- The area of a box including its margins. -/
def BoxGeom.marginArea (g : BoxGeom) (o : PVec2 Length) : Area where
  left := (g.borderArea o).left - g.margin.inlineStart
  top := (g.borderArea o).top - g.margin.blockStart
  right := (g.borderArea o).right + g.margin.inlineEnd
  bottom := (g.borderArea o).bottom + g.margin.blockEnd

/-- width of a border -/
def BoxGeom.edge (g : BoxGeom) : Side → Length
  | .top => g.border.blockStart
  | .right => g.border.inlineEnd
  | .bottom => g.border.blockEnd
  | .left => g.border.inlineStart

/-- the strip of a border: the outermost part of the border area on that side -/
def BoxGeom.strip (g : BoxGeom) (o : PVec2 Length) (s : Side) : Area :=
  let a := g.borderArea o
  match s with
  | .top => { a with bottom := a.top + g.edge .top }
  | .right => { a with left := a.right - g.edge .right }
  | .bottom => { a with top := a.bottom - g.edge .bottom }
  | .left => { a with right := a.left + g.edge .left }

/-- the line in the middle of the strip of a side, clockwise around the box -/
def Area.midline (a : Area) : Side → List (ℚ × ℚ)
  | .top => [(a.left, (a.top + a.bottom) / 2), (a.right, (a.top + a.bottom) / 2)]
  | .right => [((a.left + a.right) / 2, a.top), ((a.left + a.right) / 2, a.bottom)]
  | .bottom => [(a.right, (a.top + a.bottom) / 2), (a.left, (a.top + a.bottom) / 2)]
  | .left => [((a.left + a.right) / 2, a.bottom), ((a.left + a.right) / 2, a.top)]

/-- `border-…-style` -/
def Style.edgeStyle (st : Style) : Side → LineStyle
  | .top => st.val .borderTopStyle
  | .right => st.val .borderRightStyle
  | .bottom => st.val .borderBottomStyle
  | .left => st.val .borderLeftStyle

/-- `border-…-color` -/
def Style.edgeColor (st : Style) : Side → CssColor
  | .top => st.val .borderTopColor
  | .right => st.val .borderRightColor
  | .bottom => st.val .borderBottomColor
  | .left => st.val .borderLeftColor

/-- the colour of a CSS colour value: `currentcolor` is the text colour -/
def Style.resolved (st : Style) : CssColor → RGBA
  | .rgba c => c
  | .currentColor => st.val .color

/-- no negative length in the geometry of a box, margins aside -/
def BoxGeom.NonNeg (g : BoxGeom) : Prop :=
  g.padding.NonNeg ∧ g.border.NonNeg ∧ 0 ≤ g.contentRect.size.inline ∧ 0 ≤ g.contentRect.size.block

end Sinab
