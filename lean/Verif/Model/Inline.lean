import Verif.Model.Boxes

/-! `layout/flow/inline.rs`: inline formatting contexts and line breaking. -/

namespace Sinab

/-- `InlineNestingLevelState` (layout/flow/inline.rs 42-64) -/
structure NestLevel where
  remaining : List InlineLevelBox
  fragmentsSoFar : List Fragment
  inlineStart : Length
  blockAscent : Length
  blockDescent : Length
  blockEx : Length
  baselineAdjustment : Length
  maxAscent : Length
  maxDescent : Length

/-- `PartialInlineBoxFragment` (layout/flow/inline.rs 66-76) -/
structure PartialBox where
  style : Style
  startCorner : Vec2 Length
  padding : Sides Length
  border : Sides Length
  margin : Sides Length
  blockAscent : Length
  blockDescent : Length
  lastBoxTreeFragment : Bool
  parent : NestLevel

/-- `InlineFormattingContextState` with `LinesBoxes` (layout/flow/inline.rs 78-92).
`stack` is `partial_inline_boxes_stack` with its top (the last element of the Rust
vector) first. -/
structure IfcState where
  cb : ContainingBlock
  lines : List Fragment
  nextLineBlockPosition : Length
  textAlign : TextAlign
  inlinePosition : Length
  stack : List PartialBox
  current : NestLevel

/-- `calculate_line_ascent_descent` (layout/flow/inline.rs 572-580) -/
def lineAscentDescent (style : Style) (font : Font) : Length × Length :=
  let lineHeight := LengthOrPercentageOrNumber.relativeTo (style.val .fontSize)
    (style.val .lineHeight)
  let leading := lineHeight - (font.ascent + font.descent)
  (font.ascent + leading / 2, font.descent + leading / 2)

/-- `calculate_baseline_shift` (layout/flow/inline.rs 582-622) -/
def baselineShift (style : Style) (blockAscent blockDescent : Length) (parent : NestLevel) :
    Length :=
  match (style.val .verticalAlign : VerticalAlign) with
  | .sub => parent.blockAscent * (1 / 2)
  | .super => -parent.blockAscent * (1 / 2)
  | .middle => parent.blockEx * (-1 / 2) + (blockAscent + blockDescent) - blockAscent
  | .length shift => -shift
  | .percentage shift =>
    -(LengthOrPercentageOrNumber.relativeTo (style.val .fontSize) (style.val .lineHeight)) * shift
  | .baseline | .top | .textTop | .bottom | .textBottom => 0

/-- the fractional shift of `LinesBoxes::finish_line` (layout/flow/inline.rs 243-250) -/
def TextAlign.fraction : TextAlign → ℚ
  | .left => 0
  | .right => 1
  | .center => 1 / 2
  | .justify => 0
  | .percentage p => p

/-- `LinesBoxes::finish_line` (layout/flow/inline.rs 233-283) -/
def linesFinishLine (lines : List Fragment) (nextPos : Length) (top : NestLevel)
    (cb : ContainingBlock) (inlinePosition : Length) (align : TextAlign) :
    List Fragment × Length × NestLevel :=
  let inlineDelta := cb.inlineSize - inlinePosition
  let startCorner : Vec2 Length := ⟨inlineDelta * align.fraction, nextPos⟩
  let size : Vec2 Length := ⟨cb.inlineSize, top.maxAscent + top.maxDescent⟩
  let blockAdjustment := top.maxAscent - top.blockAscent
  let children := top.fragmentsSoFar.map (Fragment.translateBlock blockAdjustment)
  (lines ++ [.anonymous ⟨startCorner, size⟩ children cb.mode],
   nextPos + size.block,
   { top with maxAscent := 0, maxDescent := 0, fragmentsSoFar := [] })

/-- The box fragment built by `finish_layout` (layout/flow/inline.rs 358-390) and the
new inline position. -/
def PartialBox.fragment (p : PartialBox) (level : NestLevel) (inlinePosition : Length)
    (atLineBreak : Bool) : Fragment × Length :=
  let blockAdjustment := p.parent.blockAscent - p.blockAscent
  let startCorner : Vec2 Length := { p.startCorner with block := p.startCorner.block + blockAdjustment }
  let contentRect : Rect Length :=
    { size := ⟨inlinePosition - level.inlineStart, p.blockAscent + p.blockDescent⟩
      startCorner := startCorner }
  let lastFragment := p.lastBoxTreeFragment && !atLineBreak
  if lastFragment then
    (.box p.style ⟨contentRect, p.padding, p.border, p.margin⟩ .zero level.fragmentsSoFar,
     inlinePosition + (p.padding.inlineEnd + p.border.inlineEnd + p.margin.inlineEnd))
  else
    (.box p.style ⟨contentRect, { p.padding with inlineEnd := 0 }, { p.border with inlineEnd := 0 },
        { p.margin with inlineEnd := 0 }⟩ .zero level.fragmentsSoFar,
     inlinePosition)

/-- `PartialInlineBoxFragment::finish_layout` (layout/flow/inline.rs 352-400).
Results: the partial box (with its parent level extended), the finished level (its
fragments are taken) and the inline position. -/
def PartialBox.finishLayout (p : PartialBox) (level : NestLevel) (inlinePosition : Length)
    (atLineBreak : Bool) : PartialBox × NestLevel × Length :=
  let r := p.fragment level inlinePosition atLineBreak
  ({ p with parent := { p.parent with
      maxAscent := max p.parent.maxAscent level.maxAscent
      maxDescent := max p.parent.maxDescent level.maxDescent
      fragmentsSoFar := p.parent.fragmentsSoFar ++ [r.1] } },
   { level with fragmentsSoFar := [] },
   r.2)

/-- the assignments after `finish_layout` in the loop of `finish_line` that concern the
partial box (layout/flow/inline.rs 208-211) -/
def PartialBox.continueOnNextLine (p : PartialBox) : PartialBox :=
  { p with
    startCorner := { p.startCorner with inline := 0 }
    padding := { p.padding with inlineStart := 0 }
    border := { p.border with inlineStart := 0 }
    margin := { p.margin with inlineStart := 0 } }

/-- The loop of `finish_line` (layout/flow/inline.rs 201-214).  `level` is the nesting
level `nesting_level` points to; a level is final when the loop moves to the parent,
which lives in the next partial box.  Results: the current (innermost) nesting level,
the stack, the top nesting level (the one that is passed to `LinesBoxes::finish_line`)
with the way to store it back, and the inline position. -/
def finishOpenBoxes : (level : NestLevel) → (stack : List PartialBox) → (pos : Length) →
    NestLevel × List PartialBox × Length
  | level, [], pos => ({ level with inlineStart := 0 }, [], pos)
  | level, p :: ps, pos =>
    let r := p.finishLayout level pos true
    let level := { r.2.1 with inlineStart := 0, maxAscent := 0, maxDescent := 0 }
    let p := r.1.continueOnNextLine
    let rest := finishOpenBoxes p.parent ps r.2.2
    (level, { p with parent := rest.1 } :: rest.2.1, rest.2.2)

/-- the outermost nesting level: that of the innermost box if no box is open, else the
parent level of the box at the bottom of the stack -/
def topLevel (current : NestLevel) : List PartialBox → NestLevel
  | [] => current
  | p :: ps => topLevel p.parent ps

/-- writes the outermost nesting level -/
def setTopLevel (current : NestLevel) (top : NestLevel) : List PartialBox → NestLevel × List PartialBox
  | [] => (top, [])
  | p :: ps =>
    let r := setTopLevel p.parent top ps
    (current, { p with parent := r.1 } :: r.2)

/-- `InlineFormattingContextState::finish_line` (layout/flow/inline.rs 198-226) -/
def IfcState.finishLine (s : IfcState) : IfcState :=
  let r := finishOpenBoxes s.current s.stack s.inlinePosition
  let l := linesFinishLine s.lines s.nextLineBlockPosition (topLevel r.1 r.2.1) s.cb r.2.2 s.textAlign
  let t := setTopLevel r.1 l.2.2 r.2.1
  { s with
    lines := l.1
    nextLineBlockPosition := l.2.1
    inlinePosition := 0
    current := t.1
    stack := t.2 }

/-- `InlineBox::start_layout` (layout/flow/inline.rs 287-348) followed by the push of
line 138 -/
def IfcState.startBox (E : TextEnv) (s : IfcState) (style : Style) (firstFragment lastFragment : Bool)
    (children : List InlineLevelBox) : IfcState :=
  let font := E.font style
  let shift := baselineShift style font.ascent font.descent s.current
  let cbis := s.cb.inlineSize
  let padding := style.padding.percentagesRelativeTo cbis
  let border := style.borderWidth.percentagesRelativeTo cbis
  let margin := (style.margin.percentagesOrAutoRelativeTo cbis).autoIs 0
  let (pos, padding, border, margin) :=
    if firstFragment then
      (s.inlinePosition + (padding.inlineStart + border.inlineStart + margin.inlineStart),
       padding, border, margin)
    else
      (s.inlinePosition, { padding with inlineStart := 0 }, { border with inlineStart := 0 },
       { margin with inlineStart := 0 })
  let startCorner : Vec2 Length := ⟨pos - s.current.inlineStart, shift⟩
  let startCorner := startCorner + relativeAdjustement style s.cb.inlineSize s.cb.blockSize
  { s with
    inlinePosition := pos
    stack := { style := style, startCorner := startCorner, padding := padding, border := border,
               margin := margin, blockAscent := font.ascent, blockDescent := font.descent,
               lastBoxTreeFragment := lastFragment, parent := s.current } :: s.stack
    current := { remaining := children, fragmentsSoFar := [], inlineStart := pos,
                 blockAscent := font.ascent, blockDescent := font.descent, blockEx := font.ex,
                 baselineAdjustment := s.current.baselineAdjustment + shift,
                 maxAscent := 0, maxDescent := 0 } }

/-! ### Text runs -/

/-- Result of the inner loop of `layout_wrap`: remaining characters, segment, whether
a newline was read. -/
structure LineScan where
  chars : Text
  shaped : ShapedSegment
  newline : Bool
  deriving DecidableEq, Repr

/-- the overflow branch (layout/flow/inline.rs 423-432): go back to the last break
opportunity, if any -/
def overflowBreak (chars : Text) (shaped : ShapedSegment) :
    Option (SegState × Text) → Except Panic LineScan
  | some (state, iter) => do
    let shaped ← shaped.restore state
    return ⟨iter, shaped, false⟩
  | none => .ok ⟨chars, shaped, false⟩

/-- the inner loop of `layout_wrap` (layout/flow/inline.rs 419-450).  The match on the
next character unfolds the conditions of lines 421, 434-449; `chars.next()` on an
exhausted iterator leaves it exhausted. -/
def scanLine (E : TextEnv) (available : Length) : (chars : Text) → ShapedSegment →
    Option (SegState × Text) → Except Panic LineScan
  | [], shaped, lastBreak =>
    let (size, shaped) := shaped.getAdvanceWidth E
    if size > available then overflowBreak [] shaped lastBreak
    else .ok ⟨[], shaped, false⟩
  | ch :: chars, shaped, lastBreak =>
    if ch = ' ' ∨ ch = '\n' ∨ ch = '-' then
      let (size, shaped) := shaped.getAdvanceWidth E
      if size > available then overflowBreak chars shaped lastBreak
      else if ch = '\n' then .ok ⟨chars, shaped.stripSpace, true⟩
      else if ch = ' ' then
        let lastBreak := some (shaped.save, chars)
        scanLine E available chars (shaped.appendChar ch) lastBreak
      else
        let shaped := shaped.appendChar ch
        scanLine E available chars shaped (some (shaped.save, chars))
    else scanLine E available chars (shaped.appendChar ch) lastBreak

/-- The part of both text layouts after a line has been scanned: measure, update the
extents of the line, push the text fragment (layout/flow/inline.rs 451-490, 520-556).
The second result is the segment to continue with (466-489: replaced by a new one if
a fragment was pushed). -/
def IfcState.pushText (E : TextEnv) (s : IfcState) (parentStyle : Style) (font : Font)
    (shaped : ShapedSegment) (newline : Bool) : IfcState × ShapedSegment :=
  let (inlineSize, shaped) := shaped.getAdvanceWidth E
  let ad := lineAscentDescent parentStyle font
  let contentRect : Rect Length :=
    { startCorner := ⟨s.inlinePosition - s.current.inlineStart, 0⟩
      size := ⟨inlineSize, ad.1 + ad.2⟩ }
  let s := if !shaped.empty || newline then
      { s with current := { s.current with
          maxAscent := max s.current.maxAscent (ad.1 - s.current.baselineAdjustment)
          maxDescent := max s.current.maxDescent (ad.2 + s.current.baselineAdjustment) } }
    else s
  if !shaped.empty then
    ({ s with
       inlinePosition := s.inlinePosition + inlineSize
       current := { s.current with
         fragmentsSoFar := s.current.fragmentsSoFar ++ [.text parentStyle contentRect shaped] } },
     ShapedSegment.new font)
  else (s, shaped)

/-- the outer loop of `layout_wrap` (layout/flow/inline.rs 416-498) -/
def wrapLoop (E : TextEnv) (parentStyle : Style) (font : Font) : (fuel : Nat) → IfcState →
    (chars : Text) → ShapedSegment → Option (SegState × Text) → Except Panic IfcState
  | 0, _, _, _, _ => .error .outOfFuel
  | fuel + 1, s, chars, shaped, lastBreak => do
    let available := s.cb.inlineSize - s.inlinePosition
    let scan ← scanLine E available chars shaped lastBreak
    let (s, shaped) := s.pushText E parentStyle font scan.shaped scan.newline
    if !scan.chars.isEmpty || scan.newline then
      wrapLoop E parentStyle font fuel s.finishLine scan.chars shaped none
    else return s

/-- `TextRun::layout_wrap` (layout/flow/inline.rs 412-499) -/
def layoutWrap (E : TextEnv) (fuel : Nat) (parentStyle : Style) (text : Text) (font : Font)
    (s : IfcState) : Except Panic IfcState :=
  let shaped := ShapedSegment.new font
  wrapLoop E parentStyle font fuel s text shaped (some (shaped.save, text))

/-- the inner loop of `layout_nowrap` (layout/flow/inline.rs 507-519) -/
def scanNowrap : (chars : Text) → ShapedSegment → LineScan
  | [], shaped => ⟨[], shaped, false⟩
  | ch :: chars, shaped =>
    if ch = '\n' then ⟨chars, shaped, true⟩
    else scanNowrap chars (shaped.appendChar ch)

/-- `TextRun::layout_nowrap` (layout/flow/inline.rs 502-564) -/
def layoutNowrap (E : TextEnv) (parentStyle : Style) (font : Font) : (fuel : Nat) → IfcState →
    (chars : Text) → Except Panic IfcState
  | 0, _, _ => .error .outOfFuel
  | fuel + 1, s, chars =>
    let scan := scanNowrap chars (ShapedSegment.new font)
    let s := (s.pushText E parentStyle font scan.shaped scan.newline).1
    if !scan.chars.isEmpty || scan.newline then
      layoutNowrap E parentStyle font fuel s.finishLine scan.chars
    else .ok s

/-- Enough steps for both loops (shown by `layoutTextRun_spec`). -/
def textFuel (text : Text) : Nat := 2 * text.length + 3

/-- `TextRun::layout` (layout/flow/inline.rs 404-409) -/
def layoutTextRun (E : TextEnv) (parentStyle : Style) (text : Text) (font : Font)
    (s : IfcState) : Except Panic IfcState :=
  match (parentStyle.val .whiteSpace : WhiteSpace) with
  | .nowrap | .pre => layoutNowrap E parentStyle font (textFuel text) s text
  | _ => layoutWrap E (textFuel text) parentStyle text font s

/-! ### Inline formatting contexts -/

/-- static position of an absolutely positioned box found in inline content
(layout/flow/inline.rs 146-161) -/
def IfcState.absStartCorner (s : IfcState) (style : Style) : Except Panic (Vec2 Length) :=
  match style.specifiedDisplay with
  | .generatingBox outside _ =>
    .ok ⟨match outside with | .inline => s.inlinePosition | .block => 0, s.nextLineBlockPosition⟩
  | .contents => .error .panicked
  | .none => .error .panicked

/-- end of an inline box: pop the stack, `finish_layout`, return to the parent level
(layout/flow/inline.rs 172-179) -/
def IfcState.endBox (s : IfcState) : PartialBox → List PartialBox → IfcState
  | p, ps =>
    let r := p.finishLayout s.current s.inlinePosition false
    { s with current := r.1.parent, stack := ps, inlinePosition := r.2.2 }

/-- the loop of `InlineFormattingContext::layout` (layout/flow/inline.rs 133-192) -/
def ifcLoop (E : TextEnv) (treeRank : Nat) : (fuel : Nat) → IfcState → List AbsFragment →
    Except Panic (IfcState × List AbsFragment)
  | 0, _, _ => .error .outOfFuel
  | fuel + 1, s, abs =>
    match s.current.remaining with
    | box :: rest =>
      let s := { s with current := { s.current with remaining := rest } }
      match box with
      | .inlineBox style first last children =>
        ifcLoop E treeRank fuel (s.startBox E style first last children) abs
      | .textRun style text font => do
        let s ← layoutTextRun E style text font s
        ifcLoop E treeRank fuel s abs
      | .outOfFlowAbsolutelyPositionedBox style contents => do
        let corner ← s.absStartCorner style
        ifcLoop E treeRank fuel s (abs ++ [layoutAbsBox style contents corner treeRank])
      | .outOfFlowFloatBox _ _ => ifcLoop E treeRank fuel s abs
    | [] =>
      match s.stack with
      | p :: ps => ifcLoop E treeRank fuel (s.endBox p ps) abs
      | [] => .ok (s.finishLine, abs)

/-- initial state (layout/flow/inline.rs 108-132) -/
def IfcState.start (E : TextEnv) (parentStyle : Style) (boxes : List InlineLevelBox)
    (cb : ContainingBlock) : IfcState :=
  let font := E.font parentStyle
  { cb := cb, lines := [], nextLineBlockPosition := 0, textAlign := parentStyle.val .textAlign
    inlinePosition := 0, stack := []
    current := { remaining := boxes, fragmentsSoFar := [], inlineStart := 0,
                 blockAscent := font.ascent, blockDescent := font.descent, blockEx := font.ex,
                 baselineAdjustment := 0, maxAscent := 0, maxDescent := 0 } }

mutual
/-- number of loop iterations a box takes -/
def InlineLevelBox.steps : InlineLevelBox → Nat
  | .inlineBox _ _ _ children => 2 + inlineSteps children
  | .textRun .. | .outOfFlowAbsolutelyPositionedBox .. | .outOfFlowFloatBox .. => 1

/-- number of loop iterations a list of boxes takes -/
def inlineSteps : List InlineLevelBox → Nat
  | [] => 0
  | b :: bs => b.steps + inlineSteps bs
end

/-- `InlineFormattingContext::layout` (layout/flow/inline.rs 102-193); the fuel is
enough by `ifcLayout_spec` -/
def ifcLayout (E : TextEnv) (parentStyle : Style) (boxes : List InlineLevelBox)
    (cb : ContainingBlock) (treeRank : Nat) (abs : List AbsFragment) :
    Except Panic (FlowChildren × List AbsFragment) := do
  let (s, abs) ← ifcLoop E treeRank (inlineSteps boxes + 1) (IfcState.start E parentStyle boxes cb) abs
  return (⟨s.lines, s.nextLineBlockPosition, .zero⟩, abs)

end Sinab
