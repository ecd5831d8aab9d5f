import Verif.Model.Inline
import Verif.Model.Construct

/-! Block layout: `layout/flow/mod.rs`, `layout/positioned.rs` and the layout part of
`layout/flow/root.rs`.

Layout of a block-level box and of an absolutely positioned box call each other (through
their contents).  The bodies are transcribed as functions that take the recursive calls as
arguments (`boxL`, `absL`); `boxLayout` and `absLayout` tie the knot with fuel.  That the
fuel used by `rootLayout` is always enough is a theorem (`C42_layout_completes`).

`&mut Vec<AbsolutelyPositionedFragment>` becomes an argument and a result.
`Option<&mut FloatContext>` becomes `Bool` (is there one): `FloatContext`
(layout/flow/float.rs 9-18) is an empty struct. -/

namespace Sinab

/-- `PlacementState` (layout/flow/mod.rs 161-166) -/
structure PlacementState where
  /-- `next_in_flow_margin_collapses_with_parent_start_margin` -/
  collapses : Bool
  startMargin : CollapsedMargin
  currentMargin : CollapsedMargin
  /-- `current_block_direction_position` -/
  position : Length
  deriving DecidableEq, Repr

/-- the initial placement state (layout/flow/mod.rs 169-175) -/
def PlacementState.start (collapsible : Bool) : PlacementState := ⟨collapsible, .zero, .zero, 0⟩

/-- `place_block_level_fragment` (layout/flow/mod.rs 112-159) -/
def placeFragment (st : PlacementState) : Fragment → Except Panic (Fragment × PlacementState)
  | .box style g m children =>
    let size := g.padding.blockSum + g.border.blockSum + g.contentRect.size.block
    -- lines 132-147, with the state after the `if`/`else` of lines 120-136
    let finish := fun (st : PlacementState) =>
      let fragment := Fragment.box style
        { g with contentRect := g.contentRect.addBlock (st.currentMargin.solve + st.position) }
        m children
      if m.collapsedThrough then
        (fragment, { st with currentMargin := st.currentMargin.adjoin m.«end» })
      else
        (fragment, { st with
          position := st.position + (st.currentMargin.solve + size)
          currentMargin := m.«end» })
    if st.collapses then
      if st.currentMargin.solve ≠ 0 then .error .assertion
      else
        let st := { st with startMargin := st.startMargin.adjoin m.start }
        if m.collapsedThrough then
          .ok (.box style g m children,
            { st with startMargin := st.startMargin.adjoin m.«end» })
        else .ok (finish { st with collapses := false })
    else .ok (finish { st with currentMargin := st.currentMargin.adjoin m.start })
  | .anonymous rect children mode =>
    if children.isEmpty = false then .error .assertion
    else if rect.size.block ≠ 0 then .error .assertion
    else .ok (.anonymous (rect.addBlock st.position) children mode, st)
  | .text .. => .error .unreachable

/-- the `for` loop of lines 207-209 of layout/flow/mod.rs -/
def placeAll : PlacementState → List Fragment → Except Panic (List Fragment × PlacementState)
  | st, [] => .ok ([], st)
  | st, f :: fs => do
    let (f, st) ← placeFragment st f
    let (fs, st) ← placeAll st fs
    return (f :: fs, st)

/-- The type of `BlockLevelBox::layout`; the arguments are the box, `containing_block`,
`tree_rank`, `absolutely_positioned_fragments`, `float_context`. -/
abbrev BoxLayout :=
  BlockLevelBox → ContainingBlock → Nat → List AbsFragment → Bool →
    Except Panic (Fragment × List AbsFragment)

/-- The type of `AbsolutelyPositionedFragment::layout` -/
abbrev AbsLayout := AbsFragment → DefiniteContainingBlock → Except Panic Fragment

/-- the `map` of lines 196-206 of layout/flow/mod.rs; `rank` is the index of the first box -/
def layoutEach (boxL : BoxLayout) (cb : ContainingBlock) :
    Nat → List BlockLevelBox → List AbsFragment → Except Panic (List Fragment × List AbsFragment)
  | _, [], abs => .ok ([], abs)
  | rank, b :: bs, abs => do
    let (f, abs) ← boxL b cb rank abs false
    let (fs, abs) ← layoutEach boxL cb (rank + 1) bs abs
    return (f :: fs, abs)

/-- the `map` of lines 181-193 of layout/flow/mod.rs -/
def layoutAndPlaceEach (boxL : BoxLayout) (cb : ContainingBlock) :
    Nat → List BlockLevelBox → List AbsFragment → PlacementState →
      Except Panic (List Fragment × List AbsFragment × PlacementState)
  | _, [], abs, st => .ok ([], abs, st)
  | rank, b :: bs, abs, st => do
    let (f, abs) ← boxL b cb rank abs true
    let (f, st) ← placeFragment st f
    let (fs, abs, st) ← layoutAndPlaceEach boxL cb (rank + 1) bs abs st
    return (f :: fs, abs, st)

/-- `*start += …` for `AbsoluteBoxOffsets::StaticStart` (layout/positioned.rs 319-325) -/
def AbsOffsets.moveStatic (o : AbsOffsets) (d : Length) : AbsOffsets :=
  match o with
  | .staticStart s => .staticStart (s + d)
  | o => o

/-- the body of the loop of `adjust_static_positions` (layout/positioned.rs 311-325) -/
def adjustStaticPosition (children : List Fragment) (rankInParent : Nat) (a : AbsFragment) :
    Except Panic AbsFragment :=
  match children[a.treeRank]? with
  | none => .error .indexBounds
  | some (.text ..) => .error .unreachable
  | some (.box _ g _ _) => .ok { a with
      treeRank := rankInParent
      inlineStart := a.inlineStart.moveStatic g.contentRect.startCorner.inline
      blockStart := a.blockStart.moveStatic g.contentRect.startCorner.block }
  | some (.anonymous r _ _) => .ok { a with
      treeRank := rankInParent
      inlineStart := a.inlineStart.moveStatic r.startCorner.inline
      blockStart := a.blockStart.moveStatic r.startCorner.block }

/-- `adjust_static_positions` (layout/positioned.rs 305-327) -/
def adjustStaticPositions (children : List Fragment) (rankInParent : Nat) :
    List AbsFragment → Except Panic (List AbsFragment)
  | [] => .ok []
  | a :: as => do
    let a ← adjustStaticPosition children rankInParent a
    let as ← adjustStaticPositions children rankInParent as
    return a :: as

/-- `layout_block_level_children` (layout/flow/mod.rs 104-229) -/
def layoutBlockLevelChildren (boxL : BoxLayout) (boxes : List BlockLevelBox)
    (cb : ContainingBlock) (rank : Nat) (abs : List AbsFragment) (floats collapsible : Bool) :
    Except Panic (FlowChildren × List AbsFragment) := do
  let soFar := abs.length
  let st := PlacementState.start collapsible
  let (fragments, abs, st) ←
    (if floats then layoutAndPlaceEach boxL cb 0 boxes abs st
    else do
      let (fragments, abs) ← layoutEach boxL cb 0 boxes abs
      let (fragments, st) ← placeAll st fragments
      return (fragments, abs, st))
  let adjusted ← adjustStaticPositions fragments rank (abs.drop soFar)
  return ({ fragments := fragments
            blockSize := st.position
            margins := ⟨st.collapses, st.startMargin, st.currentMargin⟩ },
          abs.take soFar ++ adjusted)

/-- `BlockContainer::layout` (layout/flow/mod.rs 80-101) -/
def containerLayout (E : TextEnv) (boxL : BoxLayout) (c : BlockContainer) (cb : ContainingBlock)
    (rank : Nat) (abs : List AbsFragment) (floats collapsible : Bool) :
    Except Panic (FlowChildren × List AbsFragment) :=
  match c with
  | .blockLevelBoxes boxes => layoutBlockLevelChildren boxL boxes cb rank abs floats collapsible
  | .inlineFormattingContext parentStyle boxes => ifcLayout E parentStyle boxes cb rank abs

/-- `BlockFormattingContext::layout` (layout/flow/mod.rs 50-76);
`IndependentFormattingContext::layout` only forwards to it (layout/mod.rs 69-86) -/
def bfcLayout (E : TextEnv) (boxL : BoxLayout) (bfc : Bfc) (cb : ContainingBlock) (rank : Nat)
    (abs : List AbsFragment) : Except Panic (FlowChildren × List AbsFragment) := do
  let (fc, abs) ← containerLayout E boxL bfc.contents cb rank abs bfc.containsFloats false
  return ({ fc with
            blockSize := fc.blockSize + fc.margins.«end».solve
            margins := { fc.margins with collapsedThrough := false, «end» := .zero } }, abs)

/-- the `map` of lines 107-110 of layout/positioned.rs -/
def layoutAbsEach (absL : AbsLayout) (cb : DefiniteContainingBlock) :
    List AbsFragment → Except Panic (List Fragment)
  | [] => .ok []
  | a :: as => do
    let f ← absL a cb
    let fs ← layoutAbsEach absL cb as
    return f :: fs

/-- `in_positioned_containing_block` (layout/positioned.rs 84-112) -/
def inPositionedContainingBlock (absL : AbsLayout) (absolute : List AbsFragment)
    (fragments : List Fragment) (contentSize : Vec2 Length) (padding : Sides Length)
    (mode : Mode) : Except Panic (List Fragment) :=
  if absolute.isEmpty then .ok fragments
  else do
    let paddingRect := (Rect.mk Vec2.zero contentSize).inflate padding
    let children ← layoutAbsEach absL ⟨paddingRect.size, mode⟩ absolute
    return fragments ++ [.anonymous paddingRect children mode]

/-- `BlockLevelKind` (layout/flow/mod.rs 283-287) -/
inductive BlockLevelKind where
  | sameFormattingContextBlock
  | establishesAnIndependentFormattingContext
  deriving DecidableEq, Repr

/-- the margins after lines 315-335 of layout/flow/mod.rs: `margin` is `computed_margin`,
`inlineMargins` is `inline_margins` -/
def solveInlineMargins (margin : Sides LengthOrAuto) (inlineMargins : Length) :
    Sides LengthOrAuto :=
  match margin.inlineStart, margin.inlineEnd with
  | .auto, .auto =>
    { margin with inlineStart := .length (inlineMargins / 2), inlineEnd := .length (inlineMargins / 2) }
  | .auto, _ => { margin with inlineStart := .length inlineMargins }
  | _, .auto => { margin with inlineEnd := .length inlineMargins }
  | _, _ => { margin with inlineEnd := .length inlineMargins }

/-- what `layout_in_flow_non_replaced_block_level` computes before it lays out the contents
(layout/flow/mod.rs 303-361) -/
structure InFlowSizes where
  padding : Sides Length
  border : Sides Length
  margin : Sides Length
  inlineSize : Length
  blockSize : LengthOrAuto
  /-- `this_start_margin_can_collapse_with_children` -/
  startCollapses : Bool
  /-- `this_end_margin_can_collapse_with_children` -/
  endCollapses : Bool
  deriving DecidableEq, Repr

/-- `pb` -/
def InFlowSizes.pb (s : InFlowSizes) : Sides Length := s.padding + s.border

/-- layout/flow/mod.rs 303-345 and 356-366 -/
def inFlowSizes (cb : ContainingBlock) (style : Style) (kind : BlockLevelKind) : InFlowSizes :=
  let cbis := cb.inlineSize
  let padding := style.padding.percentagesRelativeTo cbis
  let border := style.borderWidth.percentagesRelativeTo cbis
  let computedMargin := style.margin.percentagesOrAutoRelativeTo cbis
  let pb := padding + border
  let inlineSize := style.boxSize.inline.percentageRelativeTo cbis
  let computedMargin := match inlineSize with
    | .length is => solveInlineMargins computedMargin (cbis - is - pb.inlineSum)
    | .auto => computedMargin
  let margin := computedMargin.autoIs 0
  let inlineSize := inlineSize.autoIs (cbis - pb.inlineSum - margin.inlineSum)
  let blockSize : LengthOrAuto := match style.boxSize.block with
    | .length l => .length l
    | .percentage p => cb.blockSize.map (fun cbbs => cbbs * p)
    | .auto => .auto
  { padding := padding
    border := border
    margin := margin
    inlineSize := inlineSize
    blockSize := blockSize
    startCollapses := kind == .sameFormattingContextBlock && pb.blockStart == 0
    endCollapses := kind == .sameFormattingContextBlock && pb.blockEnd == 0 && blockSize == .auto }

/-- the collapsed margins of an in-flow block from its own and those of its children
(layout/flow/mod.rs 338 and 377-405): the margins and the block size of the contents -/
def collapseWithChildren (s : InFlowSizes) (fc : FlowChildren) : CollapsedBlockMargins × Length :=
  let own := CollapsedBlockMargins.fromMargin s.margin
  let through := fc.margins.collapsedThrough
  let start :=
    if s.startCollapses then
      let start := own.start.adjoin fc.margins.start
      if through then start.adjoin fc.margins.«end» else start
    else own.start
  -- `std::mem::replace(…, CollapsedMargin::zero())`
  let childEnd := if s.startCollapses && through then CollapsedMargin.zero else fc.margins.«end»
  let «end» := if s.endCollapses then own.«end».adjoin childEnd else own.«end»
  let blockSize := if s.endCollapses then fc.blockSize else fc.blockSize + childEnd.solve
  (⟨s.startCollapses && s.endCollapses && through, start, «end»⟩, blockSize)

/-- `layout_in_flow_non_replaced_block_level` (layout/flow/mod.rs 289-431) -/
def layoutInFlow (absL : AbsLayout) (cb : ContainingBlock) (abs : List AbsFragment)
    (style : Style) (kind : BlockLevelKind)
    (layoutContents : ContainingBlock → List AbsFragment → Bool →
      Except Panic (FlowChildren × List AbsFragment)) :
    Except Panic (Fragment × List AbsFragment) :=
  let s := inFlowSizes cb style kind
  let childCb : ContainingBlock := ⟨s.inlineSize, s.blockSize, style.writingMode⟩
  if cb.mode ≠ childCb.mode then .error .assertion
  else do
    let relative := Position.isRelativelyPositioned (style.val .position)
    let (fc, out) ← layoutContents childCb (if relative then [] else abs) s.startCollapses
    let (margins, flowBlockSize) := collapseWithChildren s fc
    let adjustement := relativeAdjustement style s.inlineSize s.blockSize
    let blockSize := s.blockSize.autoIs flowBlockSize
    let contentRect : Rect Length :=
      { startCorner :=
          { block := s.pb.blockStart + adjustement.block
            inline := s.pb.inlineStart + adjustement.inline + s.margin.inlineStart }
        size := { block := blockSize, inline := s.inlineSize } }
    let children ←
      (if relative then
        inPositionedContainingBlock absL out fc.fragments contentRect.size s.padding childCb.mode
      else .ok fc.fragments)
    return (.box style ⟨contentRect, s.padding, s.border, s.margin⟩ margins children,
      if relative then abs else out)

/-- `BlockLevelBox::layout` (layout/flow/mod.rs 232-281) -/
def boxLayoutWith (E : TextEnv) (boxL : BoxLayout) (absL : AbsLayout) : BoxLayout :=
  fun box cb rank abs floats =>
    match box with
    | .sameFormattingContextBlock style contents =>
      layoutInFlow absL cb abs style .sameFormattingContextBlock
        (fun cb nested collapsible => containerLayout E boxL contents cb rank nested floats collapsible)
    | .independent style contents =>
      layoutInFlow absL cb abs style .establishesAnIndependentFormattingContext
        (fun cb nested _ => bfcLayout E boxL contents cb rank nested)
    | .outOfFlowAbsolutelyPositionedBox style contents =>
      .ok (Fragment.noOp cb.mode, abs ++ [layoutAbsBox style contents Vec2.zero rank])
    | .outOfFlowFloatBox _ _ => .ok (Fragment.noOp cb.mode, abs)

/-- `Anchor` (layout/positioned.rs 124-127) -/
inductive Anchor where
  | start (v : Length)
  | «end» (v : Length)
  deriving DecidableEq, Repr

/-- `solve_axis` (layout/positioned.rs 129-200); the result is anchor, size, margin at the
start, margin at the end -/
def solveAxis (containingSize paddingBorderSum : Length) (marginStart marginEnd : LengthOrAuto)
    (solveMargins : Length → Length × Length) (offsets : AbsOffsets)
    (size : LengthOrPercentageOrAuto) : Anchor × LengthOrAuto × Length × Length :=
  let size := size.percentageRelativeTo containingSize
  match offsets with
  | .staticStart s => (.start s, size, marginStart.autoIs 0, marginEnd.autoIs 0)
  | .start s =>
    (.start (s.percentageRelativeTo containingSize), size, marginStart.autoIs 0, marginEnd.autoIs 0)
  | .«end» e =>
    (.«end» (e.percentageRelativeTo containingSize), size, marginStart.autoIs 0, marginEnd.autoIs 0)
  | .both s e =>
    let s := s.percentageRelativeTo containingSize
    let e := e.percentageRelativeTo containingSize
    match size with
    | .length size =>
      let margins := containingSize - s - e - paddingBorderSum - size
      let m := match marginStart, marginEnd with
        | .auto, .auto => solveMargins margins
        | .auto, .length me => (margins - me, me)
        | .length ms, .auto => (ms, margins - ms)
        | .length ms, .length me => (ms, me)
      (.start s, .length size, m.1, m.2)
    | .auto =>
      let ms := marginStart.autoIs 0
      let me := marginEnd.autoIs 0
      (.start s, .length (containingSize - s - e - paddingBorderSum - ms - me), ms, me)

/-- the closure of lines 207-213 of layout/positioned.rs -/
def solveInlineAuto (margins : Length) : Length × Length :=
  if 0 ≤ margins then (margins / 2, margins / 2) else (0, margins)

/-- the closure of line 223 of layout/positioned.rs -/
def solveBlockAuto (margins : Length) : Length × Length := (margins / 2, margins / 2)

/-- what `AbsolutelyPositionedFragment::layout` computes before it lays out the contents
(layout/positioned.rs 115-246) -/
structure AbsSizes where
  padding : Sides Length
  border : Sides Length
  margin : Sides Length
  inlineAnchor : Anchor
  blockAnchor : Anchor
  inlineSize : Length
  blockSize : LengthOrAuto
  deriving DecidableEq, Repr

/-- `pb` -/
def AbsSizes.pb (s : AbsSizes) : Sides Length := s.padding + s.border

/-- layout/positioned.rs 115-246.  Both axes are solved with `cbis`, the inline size of the
containing block (lines 203 and 219). -/
def absSizes (a : AbsFragment) (cb : DefiniteContainingBlock) : AbsSizes :=
  let cbis := cb.size.inline
  let padding := a.style.padding.percentagesRelativeTo cbis
  let border := a.style.borderWidth.percentagesRelativeTo cbis
  let computedMargin := a.style.margin.percentagesOrAutoRelativeTo cbis
  let pb := padding + border
  let i := solveAxis cbis pb.inlineSum computedMargin.inlineStart computedMargin.inlineEnd
    solveInlineAuto a.inlineStart a.inlineSize
  let b := solveAxis cbis pb.blockSum computedMargin.blockStart computedMargin.blockEnd
    solveBlockAuto a.blockStart a.blockSize
  let margin : Sides Length :=
    { inlineStart := i.2.2.1, inlineEnd := i.2.2.2, blockStart := b.2.2.1, blockEnd := b.2.2.2 }
  { padding := padding
    border := border
    margin := margin
    inlineAnchor := i.1
    blockAnchor := b.1
    inlineSize := i.2.1.autoIs (match i.1 with
      | .start s => cbis - s - pb.inlineSum - margin.inlineSum
      | .«end» e => cbis - e - pb.inlineSum - margin.inlineSum)
    blockSize := b.2.1 }

/-- the content rectangle (layout/positioned.rs 264-284).  The inline end anchor is measured
from `cbbs`, the block size of the containing block (line 266). -/
def AbsSizes.contentRect (s : AbsSizes) (cb : DefiniteContainingBlock) (blockSize : Length) :
    Rect Length :=
  let cbbs := cb.size.block
  { startCorner :=
      { inline := match s.inlineAnchor with
          | .start v => v + s.pb.inlineStart + s.margin.inlineStart
          | .«end» v => cbbs - v - s.pb.inlineEnd - s.margin.inlineEnd - s.inlineSize
        block := match s.blockAnchor with
          | .start v => v + s.pb.blockStart + s.margin.blockStart
          | .«end» v => cbbs - v - s.pb.blockEnd - s.margin.blockEnd - blockSize }
    size := { inline := s.inlineSize, block := blockSize } }

/-- `AbsolutelyPositionedFragment::layout` (layout/positioned.rs 114-302) -/
def absLayoutWith (E : TextEnv) (boxL : BoxLayout) (absL : AbsLayout) : AbsLayout := fun a cb =>
  let s := absSizes a cb
  let childCb : ContainingBlock := ⟨s.inlineSize, s.blockSize, a.style.writingMode⟩
  if cb.mode ≠ childCb.mode then .error .assertion
  else do
    let (fc, nested) ← bfcLayout E boxL a.contents childCb 0 []
    let blockSize := s.blockSize.autoIs fc.blockSize
    let contentRect := s.contentRect cb blockSize
    let children ← inPositionedContainingBlock absL nested fc.fragments contentRect.size s.padding
      childCb.mode
    return .box a.style ⟨contentRect, s.padding, s.border, s.margin⟩ .zero children

mutual

/-- `BlockLevelBox::layout` (layout/flow/mod.rs 232-281) with fuel -/
def boxLayout (E : TextEnv) : Nat → BoxLayout
  | 0 => fun _ _ _ _ _ => .error .outOfFuel
  | n + 1 => boxLayoutWith E (boxLayout E n) (absLayout E n)

/-- `AbsolutelyPositionedFragment::layout` (layout/positioned.rs 114-302) with fuel -/
def absLayout (E : TextEnv) : Nat → AbsLayout
  | 0 => fun _ _ => .error .outOfFuel
  | n + 1 => absLayoutWith E (boxLayout E n) (absLayout E n)

end

mutual

/-- nesting depth of a box tree, used as fuel -/
def BlockContainer.depth : BlockContainer → Nat
  | .blockLevelBoxes boxes => blockDepth boxes
  | .inlineFormattingContext _ boxes => inlineDepth boxes

/-- nesting depth of a box tree, used as fuel -/
def Bfc.depth : Bfc → Nat
  | .mk c _ => c.depth

/-- nesting depth of a box tree, used as fuel -/
def BlockLevelBox.depth : BlockLevelBox → Nat
  | .sameFormattingContextBlock _ c => c.depth + 1
  | .outOfFlowAbsolutelyPositionedBox _ c => c.depth + 1
  | .outOfFlowFloatBox _ c => c.depth + 1
  | .independent _ c => c.depth + 1

/-- nesting depth of a box tree, used as fuel -/
def blockDepth : List BlockLevelBox → Nat
  | [] => 0
  | b :: bs => max b.depth (blockDepth bs)

/-- nesting depth of a box tree, used as fuel -/
def InlineLevelBox.depth : InlineLevelBox → Nat
  | .inlineBox _ _ _ children => inlineDepth children
  | .textRun .. => 0
  | .outOfFlowAbsolutelyPositionedBox _ c => c.depth + 1
  | .outOfFlowFloatBox _ c => c.depth + 1

/-- nesting depth of a box tree, used as fuel -/
def inlineDepth : List InlineLevelBox → Nat
  | [] => 0
  | b :: bs => max b.depth (inlineDepth bs)

end

/-- `BoxTreeRoot::layout` (layout/flow/root.rs 89-122) with a given amount of fuel -/
def rootLayoutWith (E : TextEnv) (fuel : Nat) (root : Bfc) (viewport : PVec2 Length) :
    Except Panic (List Fragment) := do
  let size : Vec2 Length := ⟨viewport.x, viewport.y⟩
  let mode : Mode := (.horizontalTb, .ltr)
  let (fc, abs) ← bfcLayout E (boxLayout E fuel) root ⟨size.inline, .length size.block, mode⟩ 0 []
  let more ← layoutAbsEach (absLayout E fuel) ⟨size, mode⟩ abs
  return fc.fragments ++ more

/-- `BoxTreeRoot::layout` (layout/flow/root.rs 89-122) -/
def rootLayout (E : TextEnv) (root : Bfc) (viewport : PVec2 Length) :
    Except Panic (List Fragment) :=
  rootLayoutWith E root.depth root viewport

end Sinab
