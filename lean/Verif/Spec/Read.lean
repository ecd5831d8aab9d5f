import Verif.Spec.Inline
import Verif.Spec.Block
import Verif.Spec.Boxes

/-! Vocabulary for statements about the text of a page: what is written on it, line by line,
and the pieces of inline content of a box tree. -/

namespace Sinab

/-- a piece of text with its style and font -/
abbrev Inked := Style × Font × Text

mutual

/-- the texts of a fragment in painting order -/
def Fragment.inked : Fragment → List Inked
  | .box _ _ _ cs => inkedAll cs
  | .anonymous _ cs _ => inkedAll cs
  | .text st _ seg => [(st, seg.font, seg.glyphs)]

/-- the texts of fragments in painting order -/
def inkedAll : List Fragment → List Inked
  | [] => []
  | f :: fs => f.inked ++ inkedAll fs

end

mutual

/-- The lines of a fragment in painting order, without empty ones.  A line box is an
anonymous fragment that does not contain others with text. -/
def Fragment.rows : Fragment → List (List Inked)
  | .box _ _ _ cs => rowsAll cs
  | .anonymous _ cs _ =>
    if rowsAll cs = [] then (if inkedAll cs = [] then [] else [inkedAll cs]) else rowsAll cs
  | .text .. => []

/-- the lines of fragments in painting order, without empty ones -/
def rowsAll : List Fragment → List (List Inked)
  | [] => []
  | f :: fs => f.rows ++ rowsAll fs

end

mutual

/-- the widths of the anonymous fragments of a fragment, which are its line boxes if nothing
is taken out of the flow -/
def Fragment.lineWidths : Fragment → List ℚ
  | .box _ _ _ cs => lineWidthsAll cs
  | .anonymous r cs _ => r.size.inline :: lineWidthsAll cs
  | .text .. => []

/-- see `Fragment.lineWidths` -/
def lineWidthsAll : List Fragment → List ℚ
  | [] => []
  | f :: fs => f.lineWidths ++ lineWidthsAll fs

end

/-- visible characters of texts, with style and font -/
def inkOfTexts (l : List Inked) : List (Style × Font × Char) :=
  l.flatMap fun p => (p.2.2.filter fun c => !htmlSpace c).map fun c => (p.1, p.2.1, c)

/-- the text of a line -/
def rowText (r : List Inked) : Text := r.flatMap (·.2.2)

/-- the words that are read on lines: a line ends a word -/
def wordsOn (rows : List (List Inked)) : List Text := rows.flatMap fun r => words (rowText r)

/-! ## Inline content of a box tree -/

mutual

/-- the inline content of the boxes, each formatting context once, floats left out -/
def BlockContainer.ifcs : BlockContainer → List (List InlineLevelBox)
  | .blockLevelBoxes bs => blockIfcs bs
  | .inlineFormattingContext _ bs => bs :: inlineIfcs bs

/-- see `BlockContainer.ifcs` -/
def Bfc.ifcs : Bfc → List (List InlineLevelBox)
  | .mk c _ => c.ifcs

/-- see `BlockContainer.ifcs` -/
def BlockLevelBox.ifcs : BlockLevelBox → List (List InlineLevelBox)
  | .sameFormattingContextBlock _ c => c.ifcs
  | .outOfFlowAbsolutelyPositionedBox _ c | .independent _ c => c.ifcs
  | .outOfFlowFloatBox _ _ => []

/-- see `BlockContainer.ifcs` -/
def blockIfcs : List BlockLevelBox → List (List InlineLevelBox)
  | [] => []
  | b :: bs => b.ifcs ++ blockIfcs bs

/-- see `BlockContainer.ifcs`: formatting contexts inside of inline content -/
def InlineLevelBox.ifcs : InlineLevelBox → List (List InlineLevelBox)
  | .inlineBox _ _ _ ks => inlineIfcs ks
  | .outOfFlowAbsolutelyPositionedBox _ c => c.ifcs
  | .textRun .. | .outOfFlowFloatBox _ _ => []

/-- see `InlineLevelBox.ifcs` -/
def inlineIfcs : List InlineLevelBox → List (List InlineLevelBox)
  | [] => []
  | b :: bs => b.ifcs ++ inlineIfcs bs

end

mutual

/-- nothing is taken out of the flow -/
def BlockContainer.flowOnly : BlockContainer → Bool
  | .blockLevelBoxes bs => blockFlowOnly bs
  | .inlineFormattingContext _ bs => inlineFlowOnly bs

/-- see `BlockContainer.flowOnly` -/
def Bfc.flowOnly : Bfc → Bool
  | .mk c _ => c.flowOnly

/-- see `BlockContainer.flowOnly` -/
def BlockLevelBox.flowOnly : BlockLevelBox → Bool
  | .sameFormattingContextBlock _ c => c.flowOnly
  | .independent _ c => c.flowOnly
  | .outOfFlowAbsolutelyPositionedBox _ _ | .outOfFlowFloatBox _ _ => false

/-- see `BlockContainer.flowOnly` -/
def blockFlowOnly : List BlockLevelBox → Bool
  | [] => true
  | b :: bs => b.flowOnly && blockFlowOnly bs

/-- see `BlockContainer.flowOnly` -/
def InlineLevelBox.flowOnly : InlineLevelBox → Bool
  | .inlineBox _ _ _ ks => inlineFlowOnly ks
  | .textRun .. => true
  | .outOfFlowAbsolutelyPositionedBox _ _ | .outOfFlowFloatBox _ _ => false

/-- see `BlockContainer.flowOnly` -/
def inlineFlowOnly : List InlineLevelBox → Bool
  | [] => true
  | b :: bs => b.flowOnly && inlineFlowOnly bs

end

mutual

/-- there are no floats -/
def BlockContainer.floatless : BlockContainer → Bool
  | .blockLevelBoxes bs => blockFloatless bs
  | .inlineFormattingContext _ bs => inlineFloatless bs

/-- see `BlockContainer.floatless` -/
def Bfc.floatless : Bfc → Bool
  | .mk c _ => c.floatless

/-- see `BlockContainer.floatless` -/
def BlockLevelBox.floatless : BlockLevelBox → Bool
  | .sameFormattingContextBlock _ c => c.floatless
  | .independent _ c | .outOfFlowAbsolutelyPositionedBox _ c => c.floatless
  | .outOfFlowFloatBox _ _ => false

/-- see `BlockContainer.floatless` -/
def blockFloatless : List BlockLevelBox → Bool
  | [] => true
  | b :: bs => b.floatless && blockFloatless bs

/-- see `BlockContainer.floatless` -/
def InlineLevelBox.floatless : InlineLevelBox → Bool
  | .inlineBox _ _ _ ks => inlineFloatless ks
  | .textRun .. => true
  | .outOfFlowAbsolutelyPositionedBox _ c => c.floatless
  | .outOfFlowFloatBox _ _ => false

/-- see `BlockContainer.floatless` -/
def inlineFloatless : List InlineLevelBox → Bool
  | [] => true
  | b :: bs => b.floatless && inlineFloatless bs

end

mutual

/-- the texts of an inline-level box in the flow, with style and font -/
def InlineLevelBox.inks : InlineLevelBox → List Inked
  | .inlineBox _ _ _ ks => inlineInked ks
  | .textRun st t f => [(st, f, t)]
  | .outOfFlowAbsolutelyPositionedBox _ _ | .outOfFlowFloatBox _ _ => []

/-- the texts of inline-level boxes in the flow, with style and font -/
def inlineInked : List InlineLevelBox → List Inked
  | [] => []
  | b :: bs => b.inks ++ inlineInked bs

end

/-! ## Text on lines -/

mutual

/-- the texts of an item of a line -/
def Item.inked : Item → List Inked
  | .text st f t _ => if t = [] then [] else [(st, f, t)]
  | .box _ _ _ _ is => itemsInked is

/-- the texts of items -/
def itemsInked : List Item → List Inked
  | [] => []
  | i :: is => i.inked ++ itemsInked is

end

/-- an inline formatting context that was broken to lines of a given width -/
structure Job where
  boxes : List InlineLevelBox
  width : ℚ
  lines : List Line

/-- the lines are those of the content -/
def Job.Ok (E : TextEnv) (j : Job) : Prop := LaysOut E j.width 0 j.boxes j.lines

/-- the texts on the lines, without empty lines -/
def Job.rows (j : Job) : List (List Inked) := (j.lines.map itemsInked).filter fun r => decide (r ≠ [])

/-! ## Words -/

/-- `units` of a text of which `cur` is the start of a unit already read -/
def unitsFrom (cur : Text) : Text → List Text
  | [] => if cur = [] then [] else [cur]
  | c :: t =>
    if htmlSpace c then (if cur = [] then unitsFrom [] t else cur :: unitsFrom [] t)
    else if c = '-' then (cur ++ [c]) :: unitsFrom [] t
    else unitsFrom (cur ++ [c]) t

/-- The parts of a text that must not be broken: words, which may be broken after hyphens. -/
def units (t : Text) : List Text := unitsFrom [] t

/-- lines are broken in text of this style -/
def Style.wraps (st : Style) : Bool :=
  match (st.val .whiteSpace : WhiteSpace) with
  | .nowrap | .pre => false
  | _ => true

/-- a line may be broken behind this text -/
def breaksBehind (t : Text) : Prop := t = [] ∨ ∃ a c, t = a ++ [c] ∧ (htmlSpace c = true ∨ c = '-')

/-- a text starts with white space -/
def startsWs (t : Text) : Prop := ∃ c r, t = c :: r ∧ htmlSpace c = true

/-- Texts do not continue the words of the texts in front of them, and do not begin with
a hyphen.  `q` is the text in front of all of them. -/
def Apart (q : Text) : List Inked → Prop
  | [] => True
  | r :: rs => (breaksBehind q ∨ startsWs r.2.2 ∨ r.2.2 = []) ∧
      (q = [] ∨ r.2.2.head? ≠ some '-') ∧ Apart (q ++ r.2.2) rs

/-- No piece of the text without break opportunity is wider than a line. -/
def WordsFit (W : Text → ℚ) (full : ℚ) (t : Text) : Prop :=
  ∀ a u b, t = a ++ u ++ b → Unbreakable u → W u ≤ full

/-- Behind a text in which lines are broken there are only others of this kind, and the
first one takes no more space for a space than the second for anything visible. -/
def Follows (E : TextEnv) (r r' : Inked) : Prop :=
  r.1.wraps = true → r'.1.wraps = true ∧
    ∀ a c t, htmlSpace c = false → E.width r.2.1 (a ++ [' ']) ≤ E.width r.2.1 a + E.width r'.2.1 (c :: t)

mutual

/-- edges of inline boxes do not take negative space -/
def InlineLevelBox.edged (cbis : ℚ) : InlineLevelBox → Prop
  | .inlineBox st _ _ ks => 0 ≤ startSpace cbis st ∧ 0 ≤ endSpace cbis st ∧ inlineEdged cbis ks
  | _ => True

/-- see `InlineLevelBox.edged` -/
def inlineEdged (cbis : ℚ) : List InlineLevelBox → Prop
  | [] => True
  | b :: bs => b.edged cbis ∧ inlineEdged cbis bs

end

/-- Inline content that can be read from its lines if they have this width. -/
structure Readable (E : TextEnv) (cbis : ℚ) (bs : List InlineLevelBox) : Prop where
  edges : inlineEdged cbis bs
  fit : ∀ r ∈ inlineInked bs, WordsFit (E.width r.2.1) cbis r.2.2
  nothing : ∀ r ∈ inlineInked bs, E.width r.2.1 [] = 0
  apart : Apart [] (inlineInked bs)
  follows : (inlineInked bs).Pairwise (Follows E)

/-- the units that are read on lines: a line ends a unit -/
def unitsOn (rows : List (List Inked)) : List Text := rows.flatMap fun r => units (rowText r)

/-! ## Documents -/

mutual

/-- nothing is taken out of the flow -/
def Styled.inflow : Styled → Bool
  | .other | .hidden _ | .text _ _ => true
  | .contents _ ks | .elem _ _ .inline _ ks => inflowAll ks
  | .elem _ st .block _ ks => !st.outOfFlow && inflowAll ks

/-- `Styled.inflow` for each entry -/
def inflowAll : List Styled → Bool
  | [] => true
  | c :: cs => c.inflow && inflowAll cs

end

mutual

/-- nothing floats -/
def Styled.unfloating : Styled → Bool
  | .other | .hidden _ | .text _ _ => true
  | .contents _ ks | .elem _ _ .inline _ ks => unfloatingAll ks
  | .elem _ st .block _ ks =>
    ((st.val .position).isAbsolutelyPositioned || !(st.val .float).isFloating) && unfloatingAll ks

/-- `Styled.unfloating` for each entry -/
def unfloatingAll : List Styled → Bool
  | [] => true
  | c :: cs => c.unfloating && unfloatingAll cs

end

mutual

/-- The text of content that does not show hidden elements; blocks are set apart by
newlines. -/
def Styled.plain : Styled → Text
  | .other | .hidden _ => []
  | .text _ t => t
  | .contents _ ks | .elem _ _ .inline _ ks => plainText ks
  | .elem _ _ .block _ ks => '\n' :: plainText ks ++ ['\n']

/-- `Styled.plain` of all entries -/
def plainText : List Styled → Text
  | [] => []
  | c :: cs => c.plain ++ plainText cs

end

mutual

/-- the text of the paragraph so far, behind an entry of the content -/
def Styled.para (acc : Text) : Styled → Text
  | .other | .hidden _ => acc
  | .text st t => joined acc [(st.keepsSpace, t)]
  | .contents _ ks => paraAll acc ks
  | .elem _ _ .inline _ ks => joined acc (piecesOf ks)
  | .elem _ _ .block _ _ => []

/-- `Styled.para` behind all entries -/
def paraAll (acc : Text) : List Styled → Text
  | [] => acc
  | c :: cs => paraAll (c.para acc) cs

end

mutual

/-- Content in the flow without inline elements that begin with white space that
separates words (see C33); `acc` is the text in front. -/
def Styled.neat (acc : Text) : Styled → Bool
  | .other | .hidden _ | .text _ _ => true
  | .contents _ ks => neatAll acc ks
  | .elem _ _ .inline _ ks => (atGap acc || !startsBlank (piecesOf ks)) && calmAll acc ks
  | .elem _ _ .block _ ks => neatAll [] ks

/-- `Styled.neat` for all entries in turn -/
def neatAll (acc : Text) : List Styled → Bool
  | [] => true
  | c :: cs => c.neat acc && neatAll (c.para acc) cs

end

end Sinab
