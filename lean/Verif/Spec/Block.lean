import Verif.Model.Block

/-! Vocabulary for statements about block layout. -/

namespace Sinab

/-! ## Box trees that can be laid out -/

mutual

/-- In inline content, absolutely positioned boxes come from elements with a `display` that
generates a box (everywhere in the tree). -/
def BlockContainer.sound : BlockContainer → Prop
  | .blockLevelBoxes boxes => blockSound boxes
  | .inlineFormattingContext _ boxes => inlineSound boxes

/-- see `BlockContainer.sound` -/
def Bfc.sound : Bfc → Prop
  | .mk c _ => c.sound

/-- see `BlockContainer.sound` -/
def BlockLevelBox.sound : BlockLevelBox → Prop
  | .sameFormattingContextBlock _ c => c.sound
  | .outOfFlowAbsolutelyPositionedBox _ c => c.sound
  | .outOfFlowFloatBox _ c => c.sound
  | .independent _ c => c.sound

/-- see `BlockContainer.sound` -/
def blockSound : List BlockLevelBox → Prop
  | [] => True
  | b :: bs => b.sound ∧ blockSound bs

/-- see `BlockContainer.sound` -/
def InlineLevelBox.sound : InlineLevelBox → Prop
  | .inlineBox _ _ _ children => inlineSound children
  | .textRun .. => True
  | .outOfFlowAbsolutelyPositionedBox st c =>
    (∃ o i, st.specifiedDisplay = .generatingBox o i) ∧ c.sound
  | .outOfFlowFloatBox _ c => c.sound

/-- see `BlockContainer.sound` -/
def inlineSound : List InlineLevelBox → Prop
  | [] => True
  | b :: bs => b.sound ∧ inlineSound bs

end

/-- horizontal, left to right -/
def ContainingBlock.standard (cb : ContainingBlock) : Prop := cb.mode = (.horizontalTb, .ltr)

/-! ## Margins -/

/-- the size of adjoining margins: the largest positive one plus the most negative one -/
def jointMargin (ms : List Length) : Length := ms.foldr max 0 + ms.foldr min 0

/-- `m` stands for the collection `ms` of adjoining margins -/
def CollapsedMargin.Is (m : CollapsedMargin) (ms : List Length) : Prop :=
  m.maxPositive = ms.foldr max 0 ∧ m.minNegative = ms.foldr min 0

/-! ## Stacking -/

/-- the height that is given for a block: percentages refer to the height of the containing
block and are `auto` if it has none -/
def usedHeight (style : Style) (cb : ContainingBlock) : LengthOrAuto :=
  match style.val .height, cb.blockSize with
  | .length l, _ => .length l
  | .percentage p, .length h => .length (h * p)
  | .percentage _, .auto => .auto
  | .auto, _ => .auto

/-- an in-flow child: margins that adjoin its top and bottom (its own and those that
collapse with them), whether they adjoin each other, and the height of its border box -/
structure ChildBox where
  top : List Length
  bottom : List Length
  through : Bool
  height : Length

/-- a child of a block container; `none` is a placeholder of an out-of-flow box -/
abbrev Child := Option ChildBox

/-- some in-flow child does not collapse through -/
def anySolid : List Child → Bool
  | [] => false
  | none :: cs => anySolid cs
  | some c :: cs => !c.through || anySolid cs

/-- the margins that adjoin the end of the children; the last child is first in the list -/
def tailMargins : List Child → List Length
  | [] => []
  | none :: cs => tailMargins cs
  | some c :: cs => if c.through then c.bottom ++ (c.top ++ tailMargins cs) else c.bottom

/-- the end of the last child that does not collapse through; the last child, with the
offset of its border box, is first in the list -/
def lastEnd : List (Child × Length) → Length
  | [] => 0
  | (none, _) :: cs => lastEnd cs
  | (some c, d) :: cs => if c.through then lastEnd cs else d + c.height

/-- where the border box of a child starts after the children `before` (last one first);
`collapsible` says that the start margin of the container adjoins its first child -/
def childOffset (collapsible : Bool) (before : List (Child × Length)) : Child → Length
  | none => lastEnd before
  | some c =>
    if collapsible && !anySolid (before.map (·.1)) then 0
    else lastEnd before + jointMargin (c.top ++ tailMargins (before.map (·.1)))

/-- children with their offsets, last one first, are stacked -/
def Stacked (collapsible : Bool) : List (Child × Length) → Prop
  | [] => True
  | (c, d) :: cs => d = childOffset collapsible cs c ∧ Stacked collapsible cs

/-- the margins that adjoin the start of the container, which collapses with its first
children; last child first -/
def headMargins : List Child → List Length
  | [] => []
  | none :: cs => headMargins cs
  | some c :: cs =>
    if anySolid cs then headMargins cs
    else if c.through then c.bottom ++ (c.top ++ headMargins cs) else c.top ++ headMargins cs

/-- a laid out fragment is the given child -/
inductive IsChild : Fragment → Child → Prop
  | box {style g m children top bottom} :
    CollapsedMargin.Is m.start top → CollapsedMargin.Is m.«end» bottom →
    IsChild (.box style g m children)
      (some ⟨top, bottom, m.collapsedThrough, g.borderRect.size.block⟩)
  | out {rect mode} : rect.size.block = 0 → IsChild (.anonymous rect [] mode) none

/-! ## Absolute positioning -/

/-- an axis of an absolutely positioned box: the margin box from `lo` to `hi`, the size of the
content `size`; the specified values: the offsets, the size `spec`, and whether a margin is
`auto`.  `total` is the size of the containing block in this axis. -/
def AxisSolved (total : Length) (offsets : AbsOffsets) (spec : LengthOrPercentageOrAuto)
    (autoMargin : Prop) (lo hi size : Length) : Prop :=
  (∀ w, spec.percentageRelativeTo total = .length w → size = w) ∧
  match offsets with
  | .staticStart v => lo = v
  | .start s => lo = s.percentageRelativeTo total
  | .«end» e => hi + e.percentageRelativeTo total = total
  | .both s e => lo = s.percentageRelativeTo total ∧
    (spec = .auto ∨ autoMargin → hi + e.percentageRelativeTo total = total)

end Sinab
