import Verif.Model.Inline
import Verif.Model.Dom

/-! Construction of the box tree (`layout/dom_traversal.rs`,
`layout/flow/construct.rs`, `layout/flow/root.rs`, `layout/element_data.rs`).

Simplifications:
* `pseudo_element_style` (layout/dom_traversal.rs 226-235) always returns `None`, so
  `traverse_pseudo_element` does nothing and pseudo-element boxes never exist; both
  are left out, as are `Contents::OfPseudoElement` and `LayoutData::pseudo_elements`.
* `ReplacedContent` has no values and `ReplacedContent::for_element` returns `None`
  (layout/replaced.rs 5-15), so `Contents` is always `OfElement(id)`.
* `IndependentFormattingContext::construct` (layout/mod.rs 39-58) is then
  `BlockFormattingContext::construct` for both values of `DisplayInside`.
* `BoxSlot` (layout/dom_traversal.rs 267-294) is the id of the element whose cell it
  borrows, or `none` for `BoxSlot::dummy()`.
* `anonymous_style` (layout/flow/construct.rs 99-101) only caches a value that depends
  on the container style; it is recomputed. -/

namespace Sinab

/-! ### Layout data of elements -/

/-- `LayoutBox` (layout/element_data.rs 15-20) -/
inductive LayoutBox where
  | displayContents
  | blockLevel (b : BlockLevelBox)
  | inlineLevel (b : InlineLevelBox)

/-- `RefCell<LayoutDataForElement>` (layout/element_data.rs 3-7, dom/mod.rs 257-262): the
field `self_box` and whether the cell is mutably borrowed by a live `BoxSlot`. -/
structure LayoutCell where
  selfBox : Option LayoutBox
  borrowed : Bool

/-- the layout data of all elements of the document -/
abbrev LayoutData := NodeId → LayoutCell

/-- `Default` (layout/element_data.rs 3): a document that was never laid out -/
def LayoutData.fresh : LayoutData := fun _ => ⟨none, false⟩

/-- `element_box_slot` with `BoxSlot::new` (layout/dom_traversal.rs 272-275, 305-310):
borrow the cell and empty it -/
def LayoutData.openSlot (L : LayoutData) (e : NodeId) : Except Panic LayoutData :=
  if (L e).borrowed then .error .borrow
  else .ok (Function.update L e ⟨none, true⟩)

/-- `BoxSlot::set` (layout/dom_traversal.rs 281-285): fill the slot; it is then
dropped, which ends the borrow -/
def LayoutData.fill (L : LayoutData) (slot : Option NodeId) (b : LayoutBox) : LayoutData :=
  match slot with
  | some e => Function.update L e ⟨some b, false⟩
  | none => L

/-- `context.layout_data_mut(element_id).self_box = Some(LayoutBox::DisplayContents)`
(layout/dom_traversal.rs 130, 297-303) -/
def LayoutData.setContents (L : LayoutData) (e : NodeId) : Except Panic LayoutData :=
  if (L e).borrowed then .error .borrow
  else .ok (Function.update L e ⟨some .displayContents, false⟩)

/-- `Drop for BoxSlot` (layout/dom_traversal.rs 288-294) while unwinding: if a slot that
was not filled is alive when a panic passes, its destructor panics a second time and
the process is aborted. -/
def unwindSlots (slots : List (Option NodeId)) (p : Panic) : Panic :=
  if p = .outOfFuel then p else if slots.any (·.isSome) then .abort else p

/-- `Drop for BoxSlot` applied to a computation during which `slots` are alive -/
def withSlots {α : Type} (slots : List (Option NodeId)) : Except Panic α → Except Panic α
  | .ok a => .ok a
  | .error p => .error (unwindSlots slots p)

/-- inner loop of `unset_boxes_in_subtree` (layout/dom_traversal.rs 359-368): returns
the next node and the final value of `next_is_a_sibling_of`.  `node` is the node of the
outer loop, whose parent is used in every round. -/
def unsetNext (d : Doc) (node : Node) : (fuel : Nat) → NodeId → Except Panic (NodeId × NodeId)
  | 0, _ => .error .outOfFuel
  | fuel + 1, sib => do
    let n ← d.get sib
    match n.nextSibling with
    | some sibling => return (sibling, sib)
    | none =>
      match node.parent with
      | some p => unsetNext d node fuel p
      | none => .error .panicked

/-- `unset_boxes_in_subtree` (layout/dom_traversal.rs 340-377), starting its loop with
`nodeId` -/
def unsetLoop (d : Doc) (base : NodeId) : (fuel : Nat) → NodeId → LayoutData →
    Except Panic LayoutData
  | 0, _, _ => .error .outOfFuel
  | fuel + 1, nodeId, L => do
    let node ← d.get nodeId
    let ascend (L : LayoutData) : Except Panic LayoutData := do
      let (next, sib) ← unsetNext d node fuel nodeId
      if sib = base then return L
      else unsetLoop d base fuel next L
    match node.data with
    | .element _ =>
      if (L nodeId).borrowed then .error .borrow
      else
        let L' := Function.update L nodeId ⟨none, false⟩
        match (L nodeId).selfBox, node.firstChild with
        | some _, some child => unsetLoop d base fuel child L'
        | _, _ => ascend L'
    | _ => ascend L

/-- `unset_boxes_in_subtree` (layout/dom_traversal.rs 340-377) -/
def unsetBoxesInSubtree (d : Doc) (base : NodeId) (fuel : Nat) (L : LayoutData) :
    Except Panic LayoutData :=
  unsetLoop d base fuel base L

/-! ### The builder of a block container -/

/-- `IntermediateBlockContainer` (layout/flow/construct.rs 47-50); the parent style of the
inline formatting context is the style of the container that is being built. -/
inductive IntermediateContainer where
  | inlineFormattingContext (parentStyle : Style) (boxes : List InlineLevelBox)
  | deferred (contents : NodeId)

/-- `IntermediateBlockLevelBox` (layout/flow/construct.rs 18-38), without
`display_inside`, which has no influence -/
inductive IntermediateBox where
  | sameFormattingContextBlock (style : Style) (contents : IntermediateContainer)
  | independent (style : Style) (contents : NodeId)
  | outOfFlowAbsolutelyPositionedBox (style : Style) (contents : NodeId)
  | outOfFlowFloatBox (style : Style) (contents : NodeId)

/-- an `InlineBox` of `ongoing_inline_boxes_stack` (layout/flow/inline.rs 23-29), whose
`last_fragment` is `false` -/
structure OpenInline where
  style : Style
  firstFragment : Bool
  children : List InlineLevelBox

/-- `BlockContainerBuilder` (layout/flow/construct.rs 56-105).  `stack` is
`ongoing_inline_boxes_stack` with the innermost box first. -/
structure Builder where
  containerStyle : Style
  blockLevelBoxes : List (IntermediateBox × Option NodeId)
  inlines : List InlineLevelBox
  stack : List OpenInline
  containsFloats : Bool

/-- What the construction reads: the document, the cascade (`style_for_element`) and
fonts (`Font::new_from_computed_values`). -/
structure BoxContext where
  doc : Doc
  styleOf : NodeId → Option Style → Except Panic Style
  fontOf : Style → Font

/-- `is_ascii_whitespace` of `char` and `u8` (Rust core): space, tab, line feed, form
feed, carriage return -/
def isAsciiWs (c : Char) : Bool :=
  c = ' ' || c = '\t' || c = '\n' || c = '\x0C' || c = '\r'

/-- the loop of `handle_text_collapse` (layout/flow/construct.rs 245-260): what is
appended to the output -/
def collapseLoop : (fuel : Nat) → Text → Text
  | 0, input => input
  | fuel + 1, input =>
    match input.span (fun c => !isAsciiWs c) with
    | (nonWs, []) => nonWs
    | (nonWs, rest) =>
      match rest.dropWhile isAsciiWs with
      | [] => nonWs ++ [' ']
      | r => nonWs ++ ' ' :: collapseLoop fuel r

/-- the loop of `handle_leading_whitespace` (layout/flow/construct.rs 344-362); `iter`
is the current reversed iterator, `stack` the suspended ones.  Returns `preserved`. -/
def leadingLoop : (fuel : Nat) → List InlineLevelBox → List (List InlineLevelBox) → Bool
  | 0, _, _ => false
  | fuel + 1, iter, stack =>
    match iter with
    | .textRun _ t _ :: _ => !(t.getLast? = some ' ' || t.getLast? = some '\n')
    | .outOfFlowAbsolutelyPositionedBox _ _ :: rest => leadingLoop fuel rest stack
    | .outOfFlowFloatBox _ _ :: rest => leadingLoop fuel rest stack
    | .inlineBox _ _ _ children :: rest => leadingLoop fuel children.reverse (rest :: stack)
    | [] =>
      match stack with
      | iter :: stack => leadingLoop fuel iter stack
      | [] => false

/-- append text to the last text run or push a new one: `get_last_text` and the pushes
(layout/flow/construct.rs 228-239, 262-271, 283-309, 315-330) -/
def appendText (C : BoxContext) (parentStyle : Style) (t : Text) (boxes : List InlineLevelBox) :
    List InlineLevelBox :=
  match boxes.getLast? with
  | some (.textRun st old f) => boxes.dropLast ++ [.textRun st (old ++ t) f]
  | _ => boxes ++ [.textRun parentStyle t (C.fontOf parentStyle)]

namespace Builder

/-- initial builder (layout/flow/construct.rs 113-121) -/
def new (style : Style) : Builder := ⟨style, [], [], [], false⟩

/-- `current_inline_level_boxes` (layout/flow/construct.rs 579-584), read -/
def current (B : Builder) : List InlineLevelBox :=
  match B.stack with
  | top :: _ => top.children
  | [] => B.inlines

/-- `current_inline_level_boxes` (layout/flow/construct.rs 579-584), written -/
def setCurrent (B : Builder) (boxes : List InlineLevelBox) : Builder :=
  match B.stack with
  | top :: rest => { B with stack := { top with children := boxes } :: rest }
  | [] => { B with inlines := boxes }

/-- `has_ongoing_inline_formatting_context` (layout/flow/construct.rs 586-592) -/
def hasOngoing (B : Builder) : Bool := !B.inlines.isEmpty || !B.stack.isEmpty

/-- `handle_leading_whitespace` (layout/flow/construct.rs 336-365) -/
def handleLeadingWhitespace (B : Builder) (text : Text) : Bool × Text :=
  match text with
  | [] => (false, text)
  | c :: _ =>
    if !isAsciiWs c then (false, text)
    else (leadingLoop (inlineSteps B.current + 1) B.current.reverse [], text.dropWhile isAsciiWs)

/-- `handle_text_collapse` (layout/flow/construct.rs 221-273) -/
def handleTextCollapse (C : BoxContext) (B : Builder) (input : Text) (parentStyle : Style) :
    Builder :=
  let (leading, input) := B.handleLeadingWhitespace input
  if leading || !input.isEmpty then
    let output := (if leading then [' '] else []) ++ collapseLoop input.length input
    B.setCurrent (appendText C parentStyle output B.current)
  else B

/-- `handle_text_preserve` (layout/flow/construct.rs 276-311) -/
def handleTextPreserve (C : BoxContext) (B : Builder) (input : Text) (parentStyle : Style) :
    Builder :=
  if !input.isEmpty then B.setCurrent (appendText C parentStyle input B.current) else B

/-- `handle_text` (layout/flow/construct.rs 209-215) -/
def handleText (C : BoxContext) (B : Builder) (input : Text) (parentStyle : Style) :
    Except Panic Builder :=
  match parentStyle.val .whiteSpace with
  | .normal | .nowrap => .ok (B.handleTextCollapse C input parentStyle)
  | .pre | .preWrap => .ok (B.handleTextPreserve C input parentStyle)
  | _ => .error .unimplemented

/-- `end_ongoing_inline_formatting_context` (layout/flow/construct.rs 544-577) -/
def endOngoing (B : Builder) : Except Panic Builder :=
  if !B.stack.isEmpty then .error .assertion
  else if B.inlines.isEmpty then .ok B
  else .ok { B with
    inlines := []
    blockLevelBoxes := B.blockLevelBoxes ++
      [(.sameFormattingContextBlock (Style.anonymousInheritingFrom (some B.containerStyle))
          (.inlineFormattingContext B.containerStyle B.inlines), none)] }

/-- the loop over `fragmented_inline_boxes` (layout/flow/construct.rs 437-447) -/
def wrapFragments (inner : InlineLevelBox) : List OpenInline → InlineLevelBox
  | [] => inner
  | o :: os => wrapFragments (.inlineBox o.style o.firstFragment false (o.children ++ [inner])) os

/-- the part of `handle_block_level_element` that splits the ongoing inline boxes
(layout/flow/construct.rs 420-452) -/
def splitInlines (B : Builder) : Builder :=
  match B.stack with
  | [] => B
  | last :: parents =>
    { B with
      inlines := B.inlines ++
        [wrapFragments (.inlineBox last.style last.firstFragment false last.children) parents]
      stack := B.stack.map fun o : OpenInline => ⟨o.style, false, []⟩ }

/-- `handle_block_level_element` (layout/flow/construct.rs 408-480) -/
def handleBlockLevel (B : Builder) (style : Style) (inside : DisplayInside) (contents : NodeId)
    (slot : Option NodeId) : Except Panic Builder := do
  let B ← B.splitInlines.endOngoing
  let box := match inside with
    | .flow => IntermediateBox.sameFormattingContextBlock style (.deferred contents)
    | .flowRoot => IntermediateBox.independent style contents
  return { B with blockLevelBoxes := B.blockLevelBoxes ++ [(box, slot)] }

/-- start of `handle_inline_level_element` (layout/flow/construct.rs 381-386) -/
def openInline (B : Builder) (style : Style) : Builder :=
  { B with stack := ⟨style, true, []⟩ :: B.stack }

/-- end of `handle_inline_level_element` (layout/flow/construct.rs 390-405) -/
def closeInline (B : Builder) : Except Panic (InlineLevelBox × Builder) :=
  match B.stack with
  | [] => .error .panicked
  | top :: rest =>
    let box := InlineLevelBox.inlineBox top.style top.firstFragment true top.children
    let B := { B with stack := rest }
    .ok (box, B.setCurrent (B.current ++ [box]))

/-- the slots that the builder keeps alive -/
def slots (B : Builder) : List (Option NodeId) := B.blockLevelBoxes.map (·.2)

end Builder

/-! ### Traversal -/

mutual

/-- the sibling loop of `traverse_children_of` (layout/dom_traversal.rs 67-81) with a
`BlockContainerBuilder` as handler; if a panic passes, the pending slots of the builder
are dropped (layout/flow/construct.rs 113-123) -/
def traverse (C : BoxContext) : (fuel : Nat) → Style → Option NodeId → LayoutData → Builder →
    Except Panic (LayoutData × Builder)
  | 0, _, _, _, _ => .error .outOfFuel
  | _ + 1, _, none, L, B => .ok (L, B)
  | fuel + 1, style, some child, L, B => do
    let n ← withSlots B.slots (C.doc.get child)
    let (L, B) ← withSlots B.slots (match n.data with
      | .text t => do
        let B ← B.handleText C t style
        return (L, B)
      | .element e => traverseElement C fuel child e style L B
      | _ => .ok (L, B))
    traverse C fuel style n.nextSibling L B

/-- `traverse_element` (layout/dom_traversal.rs 92-145) -/
def traverseElement (C : BoxContext) : (fuel : Nat) → NodeId → ElementData → Style → LayoutData →
    Builder → Except Panic (LayoutData × Builder)
  | 0, _, _, _, _, _ => .error .outOfFuel
  | fuel + 1, id, e, parentStyle, L, B => do
    let style ← C.styleOf id (some parentStyle)
    if e.name.localName = "br" then
      let B ← B.handleText C ['\n'] style
      return (L, B)
    else match style.val .display with
      | .none => do
        let L ← unsetBoxesInSubtree C.doc id fuel L
        return (L, B)
      | .contents => do
        let L ← L.setContents id
        let n ← C.doc.get id
        traverse C fuel style n.firstChild L B
      | .generatingBox outside inside => do
        let L ← L.openSlot id
        handleElement C fuel style outside inside id L B

/-- `BlockContainerBuilder::handle_element` (layout/flow/construct.rs 177-207) with
`handle_inline_level_element` (367-406), `handle_absolutely_positioned_element` (482-511)
and `handle_float_element` (513-542); the slot of the element is alive until it is filled -/
def handleElement (C : BoxContext) : (fuel : Nat) → Style → DisplayOutside → DisplayInside →
    NodeId → LayoutData → Builder → Except Panic (LayoutData × Builder)
  | 0, _, _, _, _, _, _ => .error .outOfFuel
  | fuel + 1, style, outside, inside, id, L, B =>
    withSlots [some id] <| match outside with
    | .inline =>
      match inside with
      | .flow => do
        let n ← C.doc.get id
        let (L, B) ← traverse C fuel style n.firstChild L (B.openInline style)
        let (box, B) ← B.closeInline
        return (L.fill (some id) (.inlineLevel box), B)
      | .flowRoot => .error .unimplemented
    | .block =>
      if (style.val .position).isAbsolutelyPositioned then
        if !B.hasOngoing then
          return (L, { B with blockLevelBoxes := B.blockLevelBoxes ++
            [(.outOfFlowAbsolutelyPositionedBox style id, some id)] })
        else do
          let (contents, floats, L) ← constructContainer C fuel style id L
          let box := InlineLevelBox.outOfFlowAbsolutelyPositionedBox style (.mk contents floats)
          return (L.fill (some id) (.inlineLevel box), B.setCurrent (B.current ++ [box]))
      else if (style.val .float).isFloating then
        let B := { B with containsFloats := true }
        if !B.hasOngoing then
          return (L, { B with blockLevelBoxes := B.blockLevelBoxes ++
            [(.outOfFlowFloatBox style id, some id)] })
        else do
          let (contents, floats, L) ← constructContainer C fuel style id L
          let box := InlineLevelBox.outOfFlowFloatBox style (.mk contents floats)
          return (L.fill (some id) (.inlineLevel box), B.setCurrent (B.current ++ [box]))
      else do
        let B ← B.handleBlockLevel style inside id (some id)
        return (L, B)

/-- `BlockContainer::construct` (layout/flow/construct.rs 108-173) for the children of
an element -/
def constructContainer (C : BoxContext) : (fuel : Nat) → Style → NodeId → LayoutData →
    Except Panic (BlockContainer × Bool × LayoutData)
  | 0, _, _, _ => .error .outOfFuel
  | fuel + 1, style, id, L => do
    let n ← C.doc.get id
    let (L, B) ← traverse C fuel style n.firstChild L (Builder.new style)
    withSlots B.slots (Doc.check B.stack.isEmpty)
    if !B.inlines.isEmpty && B.blockLevelBoxes.isEmpty then
      return (.inlineFormattingContext B.containerStyle B.inlines, B.containsFloats, L)
    else do
      let B ← if !B.inlines.isEmpty then withSlots B.slots B.endOngoing else .ok B
      let (boxes, floats, L) ← finishBoxes C fuel B.blockLevelBoxes L
      return (.blockLevelBoxes boxes, B.containsFloats || floats, L)

/-- the loop that finishes the block-level boxes (layout/flow/construct.rs 142-152); the
slot of the current box and those of the boxes still to come are alive -/
def finishBoxes (C : BoxContext) : (fuel : Nat) → List (IntermediateBox × Option NodeId) →
    LayoutData → Except Panic (List BlockLevelBox × Bool × LayoutData)
  | 0, _, _ => .error .outOfFuel
  | _ + 1, [], L => .ok ([], false, L)
  | fuel + 1, (b, slot) :: bs, L => do
    let (box, floats, L) ← withSlots (slot :: bs.map (·.2)) (finishBox C fuel b L)
    let L := L.fill slot (.blockLevel box)
    let (boxes, floats', L) ← finishBoxes C fuel bs L
    return (box :: boxes, floats || floats', L)

/-- `IntermediateBlockLevelBox::finish` (layout/flow/construct.rs 595-656) and
`IntermediateBlockContainer::finish` (658-680) -/
def finishBox (C : BoxContext) : (fuel : Nat) → IntermediateBox → LayoutData →
    Except Panic (BlockLevelBox × Bool × LayoutData)
  | 0, _, _ => .error .outOfFuel
  | fuel + 1, .sameFormattingContextBlock style (.deferred id), L => do
    let (contents, floats, L) ← constructContainer C fuel style id L
    return (.sameFormattingContextBlock style contents, floats, L)
  | _ + 1, .sameFormattingContextBlock style (.inlineFormattingContext st boxes), L =>
    .ok (.sameFormattingContextBlock style (.inlineFormattingContext st boxes), false, L)
  | fuel + 1, .independent style id, L => do
    let (contents, floats, L) ← constructContainer C fuel style id L
    return (.independent style (.mk contents floats), false, L)
  | fuel + 1, .outOfFlowAbsolutelyPositionedBox style id, L => do
    let (contents, floats, L) ← constructContainer C fuel style id L
    return (.outOfFlowAbsolutelyPositionedBox style (.mk contents floats), false, L)
  | fuel + 1, .outOfFlowFloatBox style id, L => do
    let (contents, floats, L) ← constructContainer C fuel style id L
    return (.outOfFlowFloatBox style (.mk contents floats), true, L)

end

/-! ### The root -/

/-- `construct_for_root_element` (layout/flow/root.rs 32-86) -/
def constructRoot (C : BoxContext) (fuel : Nat) (root : NodeId) (style : Style) (L : LayoutData) :
    Except Panic (Bool × List BlockLevelBox × LayoutData) :=
  if style.val .display = .none then .ok (false, [], L)
  else do
    let (contents, floats, L) ← constructContainer C fuel style root L
    let bfc := Bfc.mk contents floats
    if (style.val .position).isAbsolutelyPositioned then
      return (false, [.outOfFlowAbsolutelyPositionedBox style bfc], L)
    else if (style.val .float).isFloating then
      return (true, [.outOfFlowFloatBox style bfc], L)
    else return (false, [.independent style bfc], L)

/-- `BoxTreeRoot::construct` (layout/flow/root.rs 17-30) after `parse_stylesheets`, for a
document that was not laid out before (paint.rs 202-207) -/
def boxTree (C : BoxContext) (fuel : Nat) : Except Panic Bfc := do
  let root ← C.doc.rootElement C.doc.len
  let style ← C.styleOf root none
  let (floats, boxes, _) ← constructRoot C fuel root style LayoutData.fresh
  return .mk (.blockLevelBoxes boxes) floats

/-- The context that `BoxTreeRoot::construct` (layout/flow/root.rs 18-25) makes:
`style_for_element` with the user agent and author style sheets, fonts from R. -/
def BoxContext.of {S : SelectorEngine} (K : CssColors) (tokenize : AttrTokenizer)
    (ua author : StyleSet S) (d : Doc) (E : TextEnv) : BoxContext where
  doc := d
  styleOf := styleForElement K tokenize ua author d
  fontOf := E.font

end Sinab
