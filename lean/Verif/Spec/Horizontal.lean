import Verif.Spec.Vertical

/-!
Horizontal positions and widths of blocks after CSS 2.1, 10.3.3 ("Block-level, non-replaced
elements in normal flow"): they follow from the styles alone, whatever the blocks contain.
-/

namespace Sinab.Horizontal

open Vertical (marginIn spaceIn widthIn)

/-- padding and border on the left and on the right in a block of width `w` -/
def spaces (w : Length) (style : Style) : Length :=
  spaceIn w (style.val .paddingLeft) + spaceIn w (style.val .borderLeftWidth) +
    (spaceIn w (style.val .paddingRight) + spaceIn w (style.val .borderRightWidth))

/-- what is left for margins next to a block of the width `widthIn w style` -/
def room (w : Length) (style : Style) : Length := w - widthIn w style - spaces w style

/-- The left margin in a block of width `w`.  `css`: an `auto` margin takes the room that the other margin
leaves, both `auto` share the room, and they are 0 if there is no room.  Otherwise: a single
`auto` margin takes all the room, both share it, also if it is negative. -/
def leftMargin (css : Bool) (w : Length) (style : Style) : Length :=
  match style.val .width, style.val .marginLeft, style.val .marginRight with
  | .auto, m, _ => marginIn w m
  | _, .auto, .auto => if css && room w style < 0 then 0 else room w style / 2
  | _, .auto, m =>
    if css then (if room w style - marginIn w m < 0 then 0 else room w style - marginIn w m) else room w style
  | _, m, _ => marginIn w m

/-- the left edge of the border box in a block of width `w` whose contents start at `x` -/
def leftEdge (css : Bool) (w x : Length) (style : Style) : Length :=
  x + leftMargin css w style + (relativeShift style (widthIn w style) 0).inline

/-- where the contents of the block start -/
def contentLeft (css : Bool) (w x : Length) (style : Style) : Length :=
  leftEdge css w x style + spaceIn w (style.val .borderLeftWidth) + spaceIn w (style.val .paddingLeft)

/-- left and right edge of the border box -/
def sides (css : Bool) (w x : Length) (style : Style) : Length × Length :=
  (leftEdge css w x style, leftEdge css w x style + (widthIn w style + spaces w style))

mutual

/-- left and right edges of a block in the flow and of those in it, in a block of width `w` whose contents
start at `x` -/
def sidesOf (css : Bool) (w x : Length) : BlockLevelBox → List (Length × Length)
  | .sameFormattingContextBlock style c =>
    sides css w x style :: sidesIn css (widthIn w style) (contentLeft css w x style) c
  | .independent style (.mk c _) =>
    sides css w x style :: sidesIn css (widthIn w style) (contentLeft css w x style) c
  | _ => []

/-- the edges of the blocks in a block -/
def sidesIn (css : Bool) (w x : Length) : BlockContainer → List (Length × Length)
  | .blockLevelBoxes bs => sidesAll css w x bs
  | .inlineFormattingContext _ _ => []

/-- the edges of blocks one after the other -/
def sidesAll (css : Bool) (w x : Length) : List BlockLevelBox → List (Length × Length)
  | [] => []
  | b :: bs => sidesOf css w x b ++ sidesAll css w x bs

end

/-- A given width with an `auto` left margin: only if the right one is `auto`, too, and there is room. -/
def centred (w : Length) (style : Style) : Prop :=
  style.val .width ≠ .auto → style.val .marginLeft = .auto → style.val .marginRight = .auto ∧ 0 ≤ room w style

mutual

/-- `centred` holds for a block in a block of width `w` and for those in it -/
def centredOf (w : Length) : BlockLevelBox → Prop
  | .sameFormattingContextBlock style c => centred w style ∧ centredIn (widthIn w style) c
  | .independent style (.mk c _) => centred w style ∧ centredIn (widthIn w style) c
  | _ => True

/-- see `centredOf` -/
def centredIn (w : Length) : BlockContainer → Prop
  | .blockLevelBoxes bs => centredAll w bs
  | .inlineFormattingContext _ _ => True

/-- see `centredOf` -/
def centredAll (w : Length) : List BlockLevelBox → Prop
  | [] => True
  | b :: bs => centredOf w b ∧ centredAll w bs

end

/-! ## Pages that have been laid out -/

/-- left and right border edge in a box whose contents start at `x` -/
def sidesAt (x : Length) (g : BoxGeom) : Length × Length :=
  (x + g.borderRect.startCorner.inline, x + g.borderRect.startCorner.inline + g.borderRect.size.inline)

mutual

/-- left and right edges of a block in the flow and of those in it; `x` is where the contents of the block
around it start -/
def acrossOf (x : Length) : BlockLevelBox → Fragment → List (Length × Length)
  | .sameFormattingContextBlock _ c, .box _ g _ fs =>
    sidesAt x g :: acrossIn (x + g.contentRect.startCorner.inline) c fs
  | .independent _ (.mk c _), .box _ g _ fs =>
    sidesAt x g :: acrossIn (x + g.contentRect.startCorner.inline) c fs
  | _, _ => []

/-- the edges of the blocks in a block -/
def acrossIn (x : Length) : BlockContainer → List Fragment → List (Length × Length)
  | .blockLevelBoxes bs, fs => acrossAll x bs fs
  | .inlineFormattingContext _ _, _ => []

/-- the edges of blocks one after the other -/
def acrossAll (x : Length) : List BlockLevelBox → List Fragment → List (Length × Length)
  | b :: bs, f :: fs => acrossOf x b f ++ acrossAll x bs fs
  | _, _ => []

end

end Sinab.Horizontal
