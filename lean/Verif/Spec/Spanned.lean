import Verif.Spec.Block
import Verif.Spec.Paint

/-! Inline content that is put in inline boxes of its own (C96). -/

namespace Sinab

/-- a style with no margins, padding and borders that could be seen in a line, no visible background, not shifted in any
direction: that of a `span` for which nothing is said -/
structure Style.Unmarked (w : Style) : Prop where
  marginRight : w.val .marginRight = .length 0
  marginLeft : w.val .marginLeft = .length 0
  paddingRight : w.val .paddingRight = .length 0
  paddingLeft : w.val .paddingLeft = .length 0
  borderTop : w.val .borderTopWidth = .length 0
  borderRight : w.val .borderRightWidth = .length 0
  borderBottom : w.val .borderBottomWidth = .length 0
  borderLeft : w.val .borderLeftWidth = .length 0
  position : w.val .position ≠ .relative
  align : w.val .verticalAlign = .baseline
  background : (w.resolved (w.val .backgroundColor)).a = 0

/-- text is written and broken to lines in the same way in both styles, given the font -/
structure Style.SameText (s s' : Style) : Prop where
  color : s'.val .color = s.val .color
  fontSize : s'.val .fontSize = s.val .fontSize
  lineHeight : s'.val .lineHeight = s.val .lineHeight
  whiteSpace : s'.val .whiteSpace = s.val .whiteSpace

mutual

/-- The second contents are the first ones with some consecutive inline boxes put in plain inline boxes of the font
around, in any place and at any depth.  Texts may have other styles, if this makes no difference for text. -/
inductive Spanned (E : TextEnv) : BlockContainer → BlockContainer → Prop
  | blocks (bs bs' : List BlockLevelBox) (h : SpannedBlocks E bs bs') :
    Spanned E (.blockLevelBoxes bs) (.blockLevelBoxes bs')
  | inlines (st : Style) (bs bs' : List InlineLevelBox) (h : SpannedInlines E (E.font st) bs bs') :
    Spanned E (.inlineFormattingContext st bs) (.inlineFormattingContext st bs')

/-- see `Spanned` -/
inductive SpannedBlock (E : TextEnv) : BlockLevelBox → BlockLevelBox → Prop
  | same (s : Style) (c c' : BlockContainer) (h : Spanned E c c') :
    SpannedBlock E (.sameFormattingContextBlock s c) (.sameFormattingContextBlock s c')
  | independent (s : Style) (c c' : BlockContainer) (fl fl' : Bool) (h : Spanned E c c') :
    SpannedBlock E (.independent s (.mk c fl)) (.independent s (.mk c' fl'))
  | absolute (s : Style) (c c' : BlockContainer) (fl fl' : Bool) (h : Spanned E c c') :
    SpannedBlock E (.outOfFlowAbsolutelyPositionedBox s (.mk c fl)) (.outOfFlowAbsolutelyPositionedBox s (.mk c' fl'))
  | float (s : Style) (c c' : BlockContainer) (fl fl' : Bool) (h : Spanned E c c') :
    SpannedBlock E (.outOfFlowFloatBox s (.mk c fl)) (.outOfFlowFloatBox s (.mk c' fl'))

/-- see `Spanned` -/
inductive SpannedBlocks (E : TextEnv) : List BlockLevelBox → List BlockLevelBox → Prop
  | nil : SpannedBlocks E [] []
  | cons (b b' : BlockLevelBox) (bs bs' : List BlockLevelBox) (h : SpannedBlock E b b') (hs : SpannedBlocks E bs bs') :
    SpannedBlocks E (b :: bs) (b' :: bs')

/-- see `Spanned` -/
inductive SpannedInline (E : TextEnv) : InlineLevelBox → InlineLevelBox → Prop
  | text (s s' : Style) (t : Text) (font : Font) (h : s.SameText s') :
    SpannedInline E (.textRun s t font) (.textRun s' t font)
  | box (s : Style) (first last : Bool) (bs bs' : List InlineLevelBox) (h : SpannedInlines E (E.font s) bs bs') :
    SpannedInline E (.inlineBox s first last bs) (.inlineBox s first last bs')
  | absolute (s : Style) (c c' : BlockContainer) (fl fl' : Bool) (h : Spanned E c c') :
    SpannedInline E (.outOfFlowAbsolutelyPositionedBox s (.mk c fl)) (.outOfFlowAbsolutelyPositionedBox s (.mk c' fl'))
  | float (s : Style) (c c' : BlockContainer) (fl fl' : Bool) (h : Spanned E c c') :
    SpannedInline E (.outOfFlowFloatBox s (.mk c fl)) (.outOfFlowFloatBox s (.mk c' fl'))

/-- see `Spanned`; `f` is the font of the box around -/
inductive SpannedInlines (E : TextEnv) : Font → List InlineLevelBox → List InlineLevelBox → Prop
  | nil (f : Font) : SpannedInlines E f [] []
  | cons (f : Font) (b b' : InlineLevelBox) (bs bs' : List InlineLevelBox) (h : SpannedInline E b b')
    (hs : SpannedInlines E f bs bs') : SpannedInlines E f (b :: bs) (b' :: bs')
  | wrap (f : Font) (w : Style) (first last : Bool) (X X' Y Y' : List InlineLevelBox) (hw : w.Unmarked)
    (hf : E.font w = f) (hX : SpannedInlines E f X X') (hY : SpannedInlines E f Y Y') :
    SpannedInlines E f (X ++ Y) (.inlineBox w first last X' :: Y')

end

/-- a call that draws something -/
def DrawCall.isMark : DrawCall → Bool
  | .bbox .. => false
  | _ => true

end Sinab
