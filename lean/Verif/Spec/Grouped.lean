import Verif.Spec.Append
import Verif.Spec.Paint
import Verif.Spec.Rows

/-! Consecutive blocks that are put in a block of their own (C94). -/

namespace Sinab

/-- a style with no size of its own, no margins, padding and borders and no visible background, in the normal flow: that
of a `div` for which nothing is said -/
structure Style.Frameless (w : Style) : Prop where
  width : w.val .width = .auto
  height : w.val .height = .auto
  marginTop : w.val .marginTop = .length 0
  marginRight : w.val .marginRight = .length 0
  marginBottom : w.val .marginBottom = .length 0
  marginLeft : w.val .marginLeft = .length 0
  paddingTop : w.val .paddingTop = .length 0
  paddingRight : w.val .paddingRight = .length 0
  paddingBottom : w.val .paddingBottom = .length 0
  paddingLeft : w.val .paddingLeft = .length 0
  borderTop : w.val .borderTopWidth = .length 0
  borderRight : w.val .borderRightWidth = .length 0
  borderBottom : w.val .borderBottomWidth = .length 0
  borderLeft : w.val .borderLeftWidth = .length 0
  position : w.val .position ≠ .relative
  background : (w.resolved (w.val .backgroundColor)).a = 0

/-- the height is not given as a percentage -/
def Style.heightFree (s : Style) : Prop := ∀ p, s.val .height ≠ .percentage p

/-- `Style.heightFree` for a block in the flow -/
def BlockLevelBox.heightFree : BlockLevelBox → Prop
  | .sameFormattingContextBlock s _ => s.heightFree
  | .independent s _ => s.heightFree
  | _ => True

/-- there is no border above and below, or the padding there is not negative (and not a percentage) -/
def Style.bordersKept (s : Style) : Prop :=
  (s.val .borderTopWidth = .length 0 ∨ ∃ l, 0 ≤ l ∧ s.val .paddingTop = .length l) ∧
  (s.val .borderBottomWidth = .length 0 ∨ ∃ l, 0 ≤ l ∧ s.val .paddingBottom = .length l)

mutual

/-- the styles of all blocks in contents -/
def BlockContainer.blockStyles : BlockContainer → List Style
  | .blockLevelBoxes bs => blockStylesAll bs
  | .inlineFormattingContext _ _ => []

/-- see `BlockContainer.blockStyles` -/
def BlockLevelBox.blockStyles : BlockLevelBox → List Style
  | .sameFormattingContextBlock s c => s :: c.blockStyles
  | .independent s (.mk c _) => s :: c.blockStyles
  | .outOfFlowAbsolutelyPositionedBox _ _ | .outOfFlowFloatBox _ _ => []

/-- see `BlockContainer.blockStyles` -/
def blockStylesAll : List BlockLevelBox → List Style
  | [] => []
  | b :: bs => b.blockStyles ++ blockStylesAll bs

end

mutual

/-- The second contents are the first ones with consecutive blocks `L` (of which `ok` holds) put in a block without
margins, padding and borders. -/
inductive Grouped (ok : List BlockLevelBox → Prop) : BlockContainer → BlockContainer → Prop
  | here (A L B : List BlockLevelBox) (w : Style) (hw : w.Frameless) (hL : ok L) :
    Grouped ok (.blockLevelBoxes (A ++ (L ++ B)))
      (.blockLevelBoxes (A ++ .sameFormattingContextBlock w (.blockLevelBoxes L) :: B))
  | inside (A : List BlockLevelBox) (b b' : BlockLevelBox) (B : List BlockLevelBox) (h : GroupedBlock ok b b') :
    Grouped ok (.blockLevelBoxes (A ++ b :: B)) (.blockLevelBoxes (A ++ b' :: B))

/-- see `Grouped`; that there are floats in a box may be noted or not -/
inductive GroupedBlock (ok : List BlockLevelBox → Prop) : BlockLevelBox → BlockLevelBox → Prop
  | same (s : Style) (c c' : BlockContainer) (h : Grouped ok c c') :
    GroupedBlock ok (.sameFormattingContextBlock s c) (.sameFormattingContextBlock s c')
  | independent (s : Style) (c c' : BlockContainer) (fl fl' : Bool) (h : Grouped ok c c') :
    GroupedBlock ok (.independent s (.mk c fl)) (.independent s (.mk c' fl'))

end

/-- something that can be seen: a text, a rectangle with a height, a line with a length -/
def DrawCall.seen : DrawCall → Bool
  | .text .. => true
  | .rect _ _ _ h _ => h != 0
  | .line [p, q] _ _ _ => p != q
  | .line .. => true
  | .bbox .. => false

end Sinab
