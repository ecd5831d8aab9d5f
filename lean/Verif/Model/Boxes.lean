import Verif.Model.Fragments

/-! The box tree (`layout/mod.rs`, `layout/flow/mod.rs`, `layout/flow/inline.rs`,
`layout/positioned.rs`, `layout/flow/float.rs`).

`ReplacedContent` (layout/replaced.rs 5-7) is an enum without variants, so
`IndependentFormattingContext` (layout/mod.rs 26-32) only has its `Flow` variant
and `InlineLevelBox::Atomic` (layout/flow/inline.rs 17-21) has no values; both are
left out.  `Arc` is left out (values are immutable once built). -/

namespace Sinab

mutual

/-- `BlockContainer` (layout/flow/mod.rs 20-24) with `InlineFormattingContext`
(layout/flow/inline.rs 5-9) -/
inductive BlockContainer where
  | blockLevelBoxes (boxes : List BlockLevelBox)
  | inlineFormattingContext (parentStyle : Style) (boxes : List InlineLevelBox)

/-- `BlockFormattingContext` (layout/flow/mod.rs 14-18) -/
inductive Bfc where
  | mk (contents : BlockContainer) (containsFloats : Bool)

/-- `BlockLevelBox` (layout/flow/mod.rs 26-38), `AbsolutelyPositionedBox`
(layout/positioned.rs 3-7), `FloatBox` (layout/flow/float.rs 3-7) -/
inductive BlockLevelBox where
  | sameFormattingContextBlock (style : Style) (contents : BlockContainer)
  | outOfFlowAbsolutelyPositionedBox (style : Style) (contents : Bfc)
  | outOfFlowFloatBox (style : Style) (contents : Bfc)
  | independent (style : Style) (contents : Bfc)

/-- `InlineLevelBox`, `InlineBox`, `TextRun` (layout/flow/inline.rs 11-38) -/
inductive InlineLevelBox where
  | inlineBox (style : Style) (firstFragment lastFragment : Bool) (children : List InlineLevelBox)
  | textRun (parentStyle : Style) (text : Text) (font : Font)
  | outOfFlowAbsolutelyPositionedBox (style : Style) (contents : Bfc)
  | outOfFlowFloatBox (style : Style) (contents : Bfc)

end

/-- `BlockFormattingContext.contents` -/
def Bfc.contents : Bfc → BlockContainer
  | .mk c _ => c

/-- `BlockFormattingContext.contains_floats` -/
def Bfc.containsFloats : Bfc → Bool
  | .mk _ f => f

/-- `AbsoluteBoxOffsets<LengthOrPercentage>` (layout/positioned.rs 25-31) -/
inductive AbsOffsets where
  | staticStart (start : Length)
  | start (start : LengthOrPercentage)
  | «end» («end» : LengthOrPercentage)
  | both (start «end» : LengthOrPercentage)
  deriving DecidableEq, Repr

/-- `AbsolutelyPositionedFragment` (layout/positioned.rs 9-23); the reference to the
`AbsolutelyPositionedBox` is replaced by its fields `style` and `contents`. -/
structure AbsFragment where
  style : Style
  contents : Bfc
  treeRank : Nat
  inlineStart : AbsOffsets
  inlineSize : LengthOrPercentageOrAuto
  blockStart : AbsOffsets
  blockSize : LengthOrPercentageOrAuto

/-- `absolute_box_offsets` (layout/positioned.rs 46-59) -/
def absoluteBoxOffsets (initialStaticStart : Length) (start «end» : LengthOrPercentageOrAuto) :
    AbsOffsets :=
  match start.nonAuto, «end».nonAuto with
  | none, none => .staticStart initialStaticStart
  | some start, some «end» => .both start «end»
  | none, some «end» => .«end» «end»
  | some start, none => .start start

/-- `AbsolutelyPositionedBox::layout` (layout/positioned.rs 34-80) -/
def layoutAbsBox (style : Style) (contents : Bfc) (initialStartCorner : Vec2 Length)
    (treeRank : Nat) : AbsFragment where
  style := style
  contents := contents
  treeRank := treeRank
  inlineStart := absoluteBoxOffsets initialStartCorner.inline style.boxOffsets.inlineStart
    style.boxOffsets.inlineEnd
  inlineSize := style.boxSize.inline
  blockStart := absoluteBoxOffsets initialStartCorner.block style.boxOffsets.blockStart
    style.boxOffsets.blockEnd
  blockSize := style.boxSize.block

end Sinab
