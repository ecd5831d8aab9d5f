import Verif.Spec.Block
import Verif.Spec.Paint

/-! Boxes that are out of flow, and pages without some of them (C95). -/

namespace Sinab

/-- A block-level box that takes no part in the flow: a box with `position: absolute`, or a float. -/
def BlockLevelBox.isOutOfFlow : BlockLevelBox → Prop
  | .outOfFlowAbsolutelyPositionedBox st _ => st.val .position = Position.absolute
  | .outOfFlowFloatBox _ _ => True
  | _ => False

/-- see `BlockLevelBox.isOutOfFlow` -/
def InlineLevelBox.isOutOfFlow : InlineLevelBox → Prop
  | .outOfFlowAbsolutelyPositionedBox st _ => st.val .position = Position.absolute
  | .outOfFlowFloatBox _ _ => True
  | _ => False

mutual

/-- The second contents are the first ones without some of the boxes that are out of flow, at any depth. -/
inductive Pruned : BlockContainer → BlockContainer → Prop
  | blocks (bs bs' : List BlockLevelBox) (h : PrunedBlocks bs bs') : Pruned (.blockLevelBoxes bs) (.blockLevelBoxes bs')
  | inlines (st : Style) (bs bs' : List InlineLevelBox) (h : PrunedInlines bs bs') :
    Pruned (.inlineFormattingContext st bs) (.inlineFormattingContext st bs')

/-- see `Pruned`; that there are floats in a box need not be recorded any more -/
inductive PrunedBlock : BlockLevelBox → BlockLevelBox → Prop
  | same (s : Style) (c c' : BlockContainer) (h : Pruned c c') :
    PrunedBlock (.sameFormattingContextBlock s c) (.sameFormattingContextBlock s c')
  | independent (s : Style) (c c' : BlockContainer) (fl fl' : Bool) (h : Pruned c c') :
    PrunedBlock (.independent s (.mk c fl)) (.independent s (.mk c' fl'))
  | absolute (s : Style) (c c' : BlockContainer) (fl fl' : Bool) (h : Pruned c c') :
    PrunedBlock (.outOfFlowAbsolutelyPositionedBox s (.mk c fl)) (.outOfFlowAbsolutelyPositionedBox s (.mk c' fl'))
  | float (s : Style) (c : Bfc) : PrunedBlock (.outOfFlowFloatBox s c) (.outOfFlowFloatBox s c)

/-- see `Pruned` -/
inductive PrunedBlocks : List BlockLevelBox → List BlockLevelBox → Prop
  | nil : PrunedBlocks [] []
  | keep (b b' : BlockLevelBox) (bs bs' : List BlockLevelBox) (h : PrunedBlock b b') (hs : PrunedBlocks bs bs') :
    PrunedBlocks (b :: bs) (b' :: bs')
  | drop (b : BlockLevelBox) (bs bs' : List BlockLevelBox) (h : b.isOutOfFlow) (hs : PrunedBlocks bs bs') :
    PrunedBlocks (b :: bs) bs'

/-- see `Pruned` -/
inductive PrunedInline : InlineLevelBox → InlineLevelBox → Prop
  | text (s : Style) (t : Text) (f : Font) : PrunedInline (.textRun s t f) (.textRun s t f)
  | box (s : Style) (first last : Bool) (bs bs' : List InlineLevelBox) (h : PrunedInlines bs bs') :
    PrunedInline (.inlineBox s first last bs) (.inlineBox s first last bs')
  | absolute (s : Style) (c c' : BlockContainer) (fl fl' : Bool) (h : Pruned c c') :
    PrunedInline (.outOfFlowAbsolutelyPositionedBox s (.mk c fl)) (.outOfFlowAbsolutelyPositionedBox s (.mk c' fl'))
  | float (s : Style) (c : Bfc) : PrunedInline (.outOfFlowFloatBox s c) (.outOfFlowFloatBox s c)

/-- see `Pruned` -/
inductive PrunedInlines : List InlineLevelBox → List InlineLevelBox → Prop
  | nil : PrunedInlines [] []
  | keep (b b' : InlineLevelBox) (bs bs' : List InlineLevelBox) (h : PrunedInline b b') (hs : PrunedInlines bs bs') :
    PrunedInlines (b :: bs) (b' :: bs')
  | drop (b : InlineLevelBox) (bs bs' : List InlineLevelBox) (h : b.isOutOfFlow) (hs : PrunedInlines bs bs') :
    PrunedInlines (b :: bs) bs'

end

mutual

/-- What a fragment shows of the flow: without boxes with `position: absolute`, and without groups of nothing. -/
def Fragment.flowPart : Fragment → List Fragment
  | .box s g m cs => if s.val .position = Position.absolute then [] else [.box s g m (flowParts cs)]
  | .anonymous r cs m => if (flowParts cs).isEmpty then [] else [.anonymous r (flowParts cs) m]
  | .text s r t => [.text s r t]

/-- see `Fragment.flowPart` -/
def flowParts : List Fragment → List Fragment
  | [] => []
  | f :: fs => f.flowPart ++ flowParts fs

end

end Sinab
