import Verif.Spec.Block

/-! Vocabulary for statements about floats: box trees without traces of floats. -/

namespace Sinab

mutual

/-- Without floats: nothing is marked as containing floats, inline-level floats are
removed, and block-level floats are left as placeholders without contents (so that the
other boxes keep their numbers). -/
def BlockContainer.noFloats : BlockContainer → BlockContainer
  | .blockLevelBoxes boxes => .blockLevelBoxes (blockNoFloats boxes)
  | .inlineFormattingContext st boxes => .inlineFormattingContext st (inlineNoFloats boxes)

/-- see `BlockContainer.noFloats` -/
def Bfc.noFloats : Bfc → Bfc
  | .mk c _ => .mk c.noFloats false

/-- see `BlockContainer.noFloats` -/
def BlockLevelBox.noFloats : BlockLevelBox → BlockLevelBox
  | .sameFormattingContextBlock st c => .sameFormattingContextBlock st c.noFloats
  | .outOfFlowAbsolutelyPositionedBox st c => .outOfFlowAbsolutelyPositionedBox st c.noFloats
  | .outOfFlowFloatBox _ _ => .outOfFlowFloatBox Style.initial (.mk (.blockLevelBoxes []) false)
  | .independent st c => .independent st c.noFloats

/-- see `BlockContainer.noFloats` -/
def blockNoFloats : List BlockLevelBox → List BlockLevelBox
  | [] => []
  | b :: bs => b.noFloats :: blockNoFloats bs

/-- see `BlockContainer.noFloats` -/
def inlineNoFloats : List InlineLevelBox → List InlineLevelBox
  | [] => []
  | .inlineBox st f l children :: bs => .inlineBox st f l (inlineNoFloats children) :: inlineNoFloats bs
  | .textRun st t font :: bs => .textRun st t font :: inlineNoFloats bs
  | .outOfFlowAbsolutelyPositionedBox st c :: bs =>
    .outOfFlowAbsolutelyPositionedBox st c.noFloats :: inlineNoFloats bs
  | .outOfFlowFloatBox _ _ :: bs => inlineNoFloats bs

end

end Sinab
