import Verif.Model.Construct
import Verif.Spec.Forest

/-! Vocabulary for statements about the box tree: the styled content of a document,
which content can be laid out, the reading order of content and boxes, and white space. -/

namespace Sinab

/-- the white space characters of HTML: tab, line feed, form feed, carriage return, space -/
def htmlSpace (c : Char) : Bool := [0x09, 0x0A, 0x0C, 0x0D, 0x20].contains c.toNat

theorem isAsciiWs_eq : isAsciiWs = htmlSpace := by
  funext c
  rw [Bool.eq_iff_iff]
  simp only [isAsciiWs, htmlSpace, Bool.or_eq_true, decide_eq_true_eq, List.contains_iff_mem,
    List.mem_cons, List.not_mem_nil, or_false, Char.ext_iff, UInt32.ext_iff, Char.toNat]
  have : ∀ n : Nat, (((( n = 32 ∨ n = 9) ∨ n = 10) ∨ n = 12) ∨ n = 13) ↔
      (n = 9 ∨ n = 10 ∨ n = 12 ∨ n = 13 ∨ n = 32) := by omega
  exact this _

/-! ## Styled content -/

/-- What a document says about the content of an element: one entry for each child
node, with the styles that the cascade gives. -/
inductive Styled where
  /-- comments, processing instructions … -/
  | other
  /-- text (a line break element is the text "\n") -/
  | text (style : Style) (t : Text)
  /-- an element with `display: none` -/
  | hidden (id : NodeId)
  /-- an element with `display: contents` -/
  | contents (id : NodeId) (children : List Styled)
  /-- an element that generates a box -/
  | elem (id : NodeId) (style : Style) (outside : DisplayOutside) (inside : DisplayInside)
      (children : List Styled)

/-- data of a node that is neither text nor an element -/
def NodeData.isOther (n : NodeData) : Prop := n.asText = none ∧ n.asElement = none

/-- In a parent with style `st`, the nodes `l` are the content `cs`. -/
inductive Shows (C : BoxContext) (kids : NodeId → List NodeId) :
    Style → List NodeId → List Styled → Prop
  | nil {st} : Shows C kids st [] []
  | other {st i l cs} : (C.doc.node i).data.isOther → Shows C kids st l cs →
    Shows C kids st (i :: l) (.other :: cs)
  | text {st i l cs t} : (C.doc.node i).data = .text t → Shows C kids st l cs →
    Shows C kids st (i :: l) (.text st t :: cs)
  | br {st i l cs e s} : (C.doc.node i).data = .element e → e.name.localName = "br" →
    C.styleOf i (some st) = .ok s → Shows C kids st l cs →
    Shows C kids st (i :: l) (.text s ['\n'] :: cs)
  | hidden {st i l cs e s} : (C.doc.node i).data = .element e → e.name.localName ≠ "br" →
    C.styleOf i (some st) = .ok s → s.val .display = .none → Shows C kids st l cs →
    Shows C kids st (i :: l) (.hidden i :: cs)
  | contents {st i l cs e s ks} : (C.doc.node i).data = .element e → e.name.localName ≠ "br" →
    C.styleOf i (some st) = .ok s → s.val .display = .contents → Shows C kids s (kids i) ks →
    Shows C kids st l cs → Shows C kids st (i :: l) (.contents i ks :: cs)
  | elem {st i l cs e s o ins ks} : (C.doc.node i).data = .element e → e.name.localName ≠ "br" →
    C.styleOf i (some st) = .ok s → s.val .display = .generatingBox o ins →
    Shows C kids s (kids i) ks → Shows C kids st l cs →
    Shows C kids st (i :: l) (.elem i s o ins ks :: cs)

/-- taken out of the flow: absolutely positioned or floating -/
def Style.outOfFlow (s : Style) : Bool :=
  (s.val .position).isAbsolutelyPositioned || (s.val .float).isFloating

/-- a hidden element that is the last child -/
def endsHidden (cs : List Styled) : Bool :=
  match cs.getLast? with
  | some (.hidden _) => true
  | _ => false

mutual

/-- Content that the box construction can handle, in an inline element (`inl`) or
directly in a block container: supported white-space modes, no inline blocks, no in-flow
block inside an inline element, no hidden element as a last child. -/
def Styled.good (inl : Bool) : Styled → Bool
  | .other | .hidden _ => true
  | .text st _ => match st.val .whiteSpace with
    | .normal | .nowrap | .pre | .preWrap => true
    | _ => false
  | .contents _ ks => !endsHidden ks && goodAll inl ks
  | .elem _ _ .inline .flow ks => !endsHidden ks && goodAll true ks
  | .elem _ _ .inline .flowRoot _ => false
  | .elem _ st .block _ ks => (!inl || st.outOfFlow) && (!endsHidden ks && goodAll false ks)

/-- `Styled.good` for each entry -/
def goodAll (inl : Bool) : List Styled → Bool
  | [] => true
  | c :: cs => c.good inl && goodAll inl cs

end

/-- content of a block container that can be handled -/
def goodContent (cs : List Styled) : Bool := !endsHidden cs && goodAll false cs

mutual

/-- the ids of the elements of styled content -/
def Styled.ids : Styled → List NodeId
  | .other | .text _ _ => []
  | .hidden id => [id]
  | .contents id ks => id :: idsOf ks
  | .elem id _ _ _ ks => id :: idsOf ks

/-- `Styled.ids` of all entries -/
def idsOf : List Styled → List NodeId
  | [] => []
  | c :: cs => c.ids ++ idsOf cs

end

/-! ## Reading order -/

/-- what is met when content is read from start to end -/
inductive Mark where
  | enter (style : Style)
  | leave
  | char (c : Char)

/-- the visible characters of a text -/
def visible (t : Text) : List Mark := (t.filter fun c => !htmlSpace c).map .char

mutual

/-- reading order of styled content -/
def Styled.marks : Styled → List Mark
  | .other | .hidden _ => []
  | .text _ t => visible t
  | .contents _ ks => marksOf ks
  | .elem _ s _ _ ks => .enter s :: marksOf ks ++ [.leave]

/-- `Styled.marks` of all entries -/
def marksOf : List Styled → List Mark
  | [] => []
  | c :: cs => c.marks ++ marksOf cs

end

mutual

/-- reading order of a box tree -/
def BlockContainer.marks : BlockContainer → List Mark
  | .blockLevelBoxes bs => blockMarks bs
  | .inlineFormattingContext _ bs => inlineMarks bs

/-- reading order of a block formatting context -/
def Bfc.marks : Bfc → List Mark
  | .mk c _ => c.marks

/-- reading order of a block-level box.  A box of the normal flow whose own style is
not that of a block is anonymous. -/
def BlockLevelBox.marks : BlockLevelBox → List Mark
  | .sameFormattingContextBlock st c =>
    match st.val .display with
    | .generatingBox .block _ => .enter st :: c.marks ++ [.leave]
    | _ => c.marks
  | .outOfFlowAbsolutelyPositionedBox st c => .enter st :: c.marks ++ [.leave]
  | .outOfFlowFloatBox st c => .enter st :: c.marks ++ [.leave]
  | .independent st c => .enter st :: c.marks ++ [.leave]

/-- `BlockLevelBox.marks` of all boxes -/
def blockMarks : List BlockLevelBox → List Mark
  | [] => []
  | b :: bs => b.marks ++ blockMarks bs

/-- reading order of an inline-level box -/
def InlineLevelBox.marks : InlineLevelBox → List Mark
  | .inlineBox st _ _ ks => .enter st :: inlineMarks ks ++ [.leave]
  | .textRun _ t _ => visible t
  | .outOfFlowAbsolutelyPositionedBox st c => .enter st :: c.marks ++ [.leave]
  | .outOfFlowFloatBox st c => .enter st :: c.marks ++ [.leave]

/-- `InlineLevelBox.marks` of all boxes -/
def inlineMarks : List InlineLevelBox → List Mark
  | [] => []
  | b :: bs => b.marks ++ inlineMarks bs

end

/-! ## Shape of the box tree -/

/-- a block that belongs to no element: its style is not that of a block -/
def BlockLevelBox.isAnonymous : BlockLevelBox → Bool
  | .sameFormattingContextBlock st _ =>
    match st.val .display with
    | .generatingBox .block _ => false
    | _ => true
  | _ => false

/-- no two anonymous blocks next to each other -/
def anonymousApart : List BlockLevelBox → Bool
  | a :: b :: bs => !(a.isAnonymous && b.isAnonymous) && anonymousApart (b :: bs)
  | _ => true

mutual

/-- A container of blocks has no adjacent anonymous blocks, anonymous blocks hold inline
content, and inline content is not empty, nor are the texts in it. -/
def BlockContainer.proper : BlockContainer → Bool
  | .blockLevelBoxes bs => anonymousApart bs && blocksProper bs
  | .inlineFormattingContext _ bs => !bs.isEmpty && inlinesProper bs

/-- see `BlockContainer.proper` -/
def Bfc.proper : Bfc → Bool
  | .mk c _ => c.proper

/-- see `BlockContainer.proper` -/
def BlockLevelBox.proper : BlockLevelBox → Bool
  | .sameFormattingContextBlock st (.blockLevelBoxes bs) =>
    !(BlockLevelBox.isAnonymous (.sameFormattingContextBlock st (.blockLevelBoxes []))) &&
      (anonymousApart bs && blocksProper bs)
  | .sameFormattingContextBlock _ (.inlineFormattingContext _ bs) => !bs.isEmpty && inlinesProper bs
  | .outOfFlowAbsolutelyPositionedBox _ c => c.proper
  | .outOfFlowFloatBox _ c => c.proper
  | .independent _ c => c.proper

/-- see `BlockContainer.proper` -/
def blocksProper : List BlockLevelBox → Bool
  | [] => true
  | b :: bs => b.proper && blocksProper bs

/-- see `BlockContainer.proper` -/
def InlineLevelBox.proper : InlineLevelBox → Bool
  | .inlineBox _ first last ks => first && last && inlinesProper ks
  | .textRun _ t _ => !t.isEmpty
  | .outOfFlowAbsolutelyPositionedBox _ c => c.proper
  | .outOfFlowFloatBox _ c => c.proper

/-- see `BlockContainer.proper` -/
def inlinesProper : List InlineLevelBox → Bool
  | [] => true
  | b :: bs => b.proper && inlinesProper bs

end

/-! ## Boxes of elements -/

/-- reading order of the box of an element -/
def LayoutBox.marks : LayoutBox → List Mark
  | .displayContents => []
  | .blockLevel b => b.marks
  | .inlineLevel b => b.marks

mutual

/-- the elements of styled content, without those inside of hidden ones -/
def Styled.entries : Styled → List (NodeId × Styled)
  | .other | .text _ _ => []
  | .hidden id => [(id, .hidden id)]
  | .contents id ks => (id, .contents id ks) :: entriesOf ks
  | .elem id s o i ks => (id, .elem id s o i ks) :: entriesOf ks

/-- `Styled.entries` of all entries -/
def entriesOf : List Styled → List (NodeId × Styled)
  | [] => []
  | c :: cs => c.entries ++ entriesOf cs

end

/-- What the layout data of an element should be: nothing for a hidden element, a mark for
`display: contents`, otherwise the box with the content of the element.  It is not
borrowed. -/
def Settled : Styled → LayoutCell → Prop
  | .other, _ | .text _ _, _ => True
  | .hidden _, c => c = ⟨none, false⟩
  | .contents _ _, c => c = ⟨some .displayContents, false⟩
  | .elem id s o i ks, c =>
    ∃ b : LayoutBox, c = ⟨some b, false⟩ ∧ b.marks = (Styled.elem id s o i ks).marks

/-! ## Content that differs only in what is not displayed -/

mutual

/-- drop what is not displayed, and the identity of elements -/
def Styled.strip : Styled → List Styled
  | .other | .hidden _ => []
  | .text st t => [.text st t]
  | .contents _ ks => [.contents 0 (stripAll ks)]
  | .elem _ s o i ks => [.elem 0 s o i (stripAll ks)]

/-- `Styled.strip` of all entries -/
def stripAll : List Styled → List Styled
  | [] => []
  | c :: cs => c.strip ++ stripAll cs

end

/-! ## White space -/

/-- A text is followed by a place where white space has no effect: it is empty or ends
with a space or a line feed. -/
def atGap (t : Text) : Bool :=
  match t.getLast? with
  | none => true
  | some c => c = ' ' || c = '\n'

/-- White space becomes one space, or nothing if `gap` (it follows white space). -/
def squeeze : (gap : Bool) → Text → Text
  | _, [] => []
  | gap, c :: t =>
    if htmlSpace c then (if gap then squeeze true t else ' ' :: squeeze true t)
    else c :: squeeze false t

/-- the words of a text of which `cur` is the start of a word already read -/
def wordsFrom (cur : Text) : Text → List Text
  | [] => if cur = [] then [] else [cur]
  | c :: t =>
    if htmlSpace c then (if cur = [] then wordsFrom [] t else cur :: wordsFrom [] t)
    else wordsFrom (cur ++ [c]) t

/-- the words of a text -/
def words (t : Text) : List Text := wordsFrom [] t

/-- white space of a text in this style is preserved -/
def Style.keepsSpace (st : Style) : Bool :=
  match st.val .whiteSpace with
  | .normal | .nowrap => false
  | _ => true

/-- Texts put one after the other: preserved texts as they are, the white space of others
is collapsed. -/
def joined (acc : Text) : List (Bool × Text) → Text
  | [] => acc
  | (keep, t) :: ps => joined (acc ++ if keep then t else squeeze (atGap acc) t) ps

mutual

/-- text of an inline-level box in the flow -/
def InlineLevelBox.text : InlineLevelBox → Text
  | .inlineBox _ _ _ ks => inlineText ks
  | .textRun _ t _ => t
  | .outOfFlowAbsolutelyPositionedBox _ _ | .outOfFlowFloatBox _ _ => []

/-- text of inline-level boxes in the flow -/
def inlineText : List InlineLevelBox → Text
  | [] => []
  | b :: bs => b.text ++ inlineText bs

end

/-- text of a block that holds inline content directly -/
def BlockLevelBox.ownText : BlockLevelBox → Text
  | .sameFormattingContextBlock _ (.inlineFormattingContext _ bs) => inlineText bs
  | _ => []

/-- text that is directly in a container, also in anonymous blocks -/
def BlockContainer.ownText : BlockContainer → Text
  | .inlineFormattingContext _ bs => inlineText bs
  | .blockLevelBoxes bs =>
    ((bs.filter BlockLevelBox.isAnonymous).map BlockLevelBox.ownText).flatten

mutual

/-- The texts of content in the flow, with their white space mode. -/
def Styled.pieces : Styled → List (Bool × Text)
  | .other | .hidden _ => []
  | .text st t => [(st.keepsSpace, t)]
  | .contents _ ks => piecesOf ks
  | .elem _ _ .inline _ ks => piecesOf ks
  | .elem _ st .block _ ks => if st.outOfFlow then [] else piecesOf ks

/-- `Styled.pieces` of all entries -/
def piecesOf : List Styled → List (Bool × Text)
  | [] => []
  | c :: cs => c.pieces ++ piecesOf cs

end

/-- the source text of content in the flow -/
def sourceText (cs : List Styled) : Text := ((piecesOf cs).map (·.2)).flatten

/-- the content begins with collapsible white space -/
def startsBlank : List (Bool × Text) → Bool
  | [] => false
  | (_, []) :: ps => startsBlank ps
  | (keep, c :: _) :: _ => !keep && htmlSpace c

mutual

/-- The text that reaches layout after `acc`: an inline element does not see the text in
front of it. -/
def Styled.shown (acc : Text) : Styled → Text
  | .other | .hidden _ | .elem _ _ .block _ _ => acc
  | .text st t => acc ++ if st.keepsSpace then t else squeeze (atGap acc) t
  | .contents _ ks => shownAll acc ks
  | .elem _ _ .inline _ ks => acc ++ shownAll [] ks

/-- `Styled.shown` for all entries in turn -/
def shownAll (acc : Text) : List Styled → Text
  | [] => acc
  | c :: cs => shownAll (c.shown acc) cs

end

mutual

/-- No inline element begins with white space that separates words, where `acc` is the
text in front. -/
def Styled.calm (acc : Text) : Styled → Bool
  | .other | .hidden _ | .text _ _ | .elem _ _ .block _ _ => true
  | .contents _ ks => calmAll acc ks
  | .elem _ _ .inline _ ks => (atGap acc || !startsBlank (piecesOf ks)) && calmAll acc ks

/-- `Styled.calm` for each entry -/
def calmAll (acc : Text) : List Styled → Bool
  | [] => true
  | c :: cs => c.calm acc && calmAll (joined acc c.pieces) cs

end

mutual

/-- inline content only: no block in the flow -/
def Styled.inlineOnly : Styled → Bool
  | .other | .hidden _ | .text _ _ => true
  | .contents _ ks | .elem _ _ .inline _ ks => inlineOnlyAll ks
  | .elem _ st .block _ _ => st.outOfFlow

/-- `Styled.inlineOnly` for each entry -/
def inlineOnlyAll : List Styled → Bool
  | [] => true
  | c :: cs => c.inlineOnly && inlineOnlyAll cs

end

/-! ## Style of text -/

/-- all longhands -/
def Longhand.all : List Longhand :=
  [.fontSize, .fontStyle, .fontWeight, .fontFamily, .lineHeight, .verticalAlign, .color, .textAlign,
   .whiteSpace, .position, .float, .display, .top, .left, .bottom, .right, .width, .height,
   .marginTop, .marginRight, .marginBottom, .marginLeft, .paddingTop, .paddingRight, .paddingBottom,
   .paddingLeft, .borderTopColor, .borderRightColor, .borderBottomColor, .borderLeftColor,
   .borderTopStyle, .borderRightStyle, .borderBottomStyle, .borderLeftStyle, .borderTopWidth,
   .borderRightWidth, .borderBottomWidth, .borderLeftWidth, .backgroundColor]

theorem Longhand.mem_all (p : Longhand) : p ∈ Longhand.all := by cases p <;> decide

instance (p : Longhand) : DecidableEq p.Comp := by cases p <;> (dsimp only [Longhand.Comp]; infer_instance)

instance : DecidableEq Style := fun a b =>
  decidable_of_iff ((∀ p ∈ Longhand.all, a.val p = b.val p) ∧ a.specifiedDisplay = b.specifiedDisplay)
    ⟨fun h => Style.ext (funext fun p => h.1 p p.mem_all) h.2, by rintro rfl; exact ⟨fun _ _ => rfl, rfl⟩⟩

mutual

/-- Text comes immediately before the next entry: `op` if it comes immediately before this
one. -/
def Styled.afterText (op : Bool) : Styled → Bool
  | .other | .hidden _ => op
  | .text _ t => op || t.any fun c => !htmlSpace c
  | .contents _ ks => afterTextAll op ks
  | .elem _ _ _ _ _ => false

/-- `Styled.afterText` for all entries in turn -/
def afterTextAll (op : Bool) : List Styled → Bool
  | [] => op
  | c :: cs => afterTextAll (c.afterText op) cs

end

mutual

/-- All texts directly in an element with style `st` have its style, but white space of
other styles (line breaks) may follow text immediately. -/
def Styled.uniform (st : Style) (op : Bool) : Styled → Bool
  | .other | .hidden _ => true
  | .text s t => decide (s = st) || op && t.all htmlSpace
  | .contents _ ks => uniformAll st op ks
  | .elem _ s _ _ ks => uniformAll s false ks

/-- `Styled.uniform` for all entries in turn -/
def uniformAll (st : Style) (op : Bool) : List Styled → Bool
  | [] => true
  | c :: cs => c.uniform st op && uniformAll st (c.afterText op) cs

end

mutual

/-- The visible characters of content, each with the style of its text and the font of
that style, in the flow and out of it. -/
def Styled.ink (font : Style → Font) : Styled → List (Style × Font × Char)
  | .other | .hidden _ => []
  | .text st t => (t.filter fun c => !htmlSpace c).map fun c => (st, font st, c)
  | .contents _ ks | .elem _ _ _ _ ks => inkOf font ks

/-- `Styled.ink` of all entries -/
def inkOf (font : Style → Font) : List Styled → List (Style × Font × Char)
  | [] => []
  | c :: cs => c.ink font ++ inkOf font cs

end

mutual

/-- the visible characters of a box tree with the style and font of their runs -/
def BlockContainer.ink : BlockContainer → List (Style × Font × Char)
  | .blockLevelBoxes bs => blockInk bs
  | .inlineFormattingContext _ bs => inlineInk bs

/-- see `BlockContainer.ink` -/
def Bfc.ink : Bfc → List (Style × Font × Char)
  | .mk c _ => c.ink

/-- see `BlockContainer.ink` -/
def BlockLevelBox.ink : BlockLevelBox → List (Style × Font × Char)
  | .sameFormattingContextBlock _ c => c.ink
  | .outOfFlowAbsolutelyPositionedBox _ c | .outOfFlowFloatBox _ c | .independent _ c => c.ink

/-- see `BlockContainer.ink` -/
def blockInk : List BlockLevelBox → List (Style × Font × Char)
  | [] => []
  | b :: bs => b.ink ++ blockInk bs

/-- see `BlockContainer.ink` -/
def InlineLevelBox.ink : InlineLevelBox → List (Style × Font × Char)
  | .inlineBox _ _ _ ks => inlineInk ks
  | .textRun st t f => (t.filter fun c => !htmlSpace c).map fun c => (st, f, c)
  | .outOfFlowAbsolutelyPositionedBox _ c | .outOfFlowFloatBox _ c => c.ink

/-- see `BlockContainer.ink` -/
def inlineInk : List InlineLevelBox → List (Style × Font × Char)
  | [] => []
  | b :: bs => b.ink ++ inlineInk bs

end

end Sinab
