import Verif.Model.Construct

/-! Specification vocabulary: which formatting contexts contain floats. -/

namespace Sinab

mutual

/-- there is a float in this formatting context -/
def BlockContainer.floats : BlockContainer → Bool
  | .blockLevelBoxes boxes => blockFloats boxes
  | .inlineFormattingContext _ boxes => inlineFloats boxes

/-- see `BlockContainer.floats`; the contents of floats, of absolutely positioned boxes and of
independent boxes are formatting contexts of their own -/
def BlockLevelBox.floats : BlockLevelBox → Bool
  | .sameFormattingContextBlock _ c => c.floats
  | .outOfFlowAbsolutelyPositionedBox _ _ => false
  | .outOfFlowFloatBox _ _ => true
  | .independent _ _ => false

/-- see `BlockContainer.floats` -/
def blockFloats : List BlockLevelBox → Bool
  | [] => false
  | b :: bs => b.floats || blockFloats bs

/-- see `BlockContainer.floats` -/
def InlineLevelBox.floats : InlineLevelBox → Bool
  | .inlineBox _ _ _ children => inlineFloats children
  | .textRun .. => false
  | .outOfFlowAbsolutelyPositionedBox _ _ => false
  | .outOfFlowFloatBox _ _ => true

/-- see `BlockContainer.floats` -/
def inlineFloats : List InlineLevelBox → Bool
  | [] => false
  | b :: bs => b.floats || inlineFloats bs

end

mutual

/-- every formatting context inside is marked as containing floats exactly if it does -/
def BlockContainer.marked : BlockContainer → Prop
  | .blockLevelBoxes boxes => blockMarked boxes
  | .inlineFormattingContext _ boxes => inlineMarked boxes

/-- the formatting context, and every one inside, is marked as containing floats exactly if
it does -/
def Bfc.marked : Bfc → Prop
  | .mk c mark => mark = c.floats ∧ c.marked

/-- see `BlockContainer.marked` -/
def BlockLevelBox.marked : BlockLevelBox → Prop
  | .sameFormattingContextBlock _ c => c.marked
  | .outOfFlowAbsolutelyPositionedBox _ c => c.marked
  | .outOfFlowFloatBox _ c => c.marked
  | .independent _ c => c.marked

/-- see `BlockContainer.marked` -/
def blockMarked : List BlockLevelBox → Prop
  | [] => True
  | b :: bs => b.marked ∧ blockMarked bs

/-- see `BlockContainer.marked` -/
def InlineLevelBox.marked : InlineLevelBox → Prop
  | .inlineBox _ _ _ children => inlineMarked children
  | .textRun .. => True
  | .outOfFlowAbsolutelyPositionedBox _ c => c.marked
  | .outOfFlowFloatBox _ c => c.marked

/-- see `BlockContainer.marked` -/
def inlineMarked : List InlineLevelBox → Prop
  | [] => True
  | b :: bs => b.marked ∧ inlineMarked bs

end

end Sinab
