import Verif.Spec.Block
import Verif.Spec.Inline

/-! Vocabulary for statements about relative positioning: the shift that offsets ask for,
documents without offsets, and how their layouts differ. -/

namespace Sinab

/-- the length an offset stands for, `none` for `auto`; percentages are of `base` -/
def givenOffset (base : Length) : LengthOrPercentageOrAuto → Option Length
  | .length l => some l
  | .percentage p => some (base * p)
  | .auto => none

/-- the shift along one axis: the start offset wins over the end offset, `auto` is no shift -/
def axisShift (base : Length) (start «end» : LengthOrPercentageOrAuto) : Length :=
  match givenOffset base start, givenOffset base «end» with
  | some s, _ => s
  | none, some e => -e
  | none, none => 0

/-- the shift that a style asks for; horizontal percentages are of `w`, vertical ones of `h` -/
def relativeShift (style : Style) (w h : Length) : Vec2 Length :=
  if (style.val .position : Position) = .relative then
    ⟨axisShift w (style.val .left) (style.val .right), axisShift h (style.val .top) (style.val .bottom)⟩
  else ⟨0, 0⟩

/-- all offsets `auto` -/
def Style.withoutOffsets (s : Style) : Style :=
  (((s.set .top LengthOrPercentageOrAuto.auto).set .left LengthOrPercentageOrAuto.auto).set .bottom
    LengthOrPercentageOrAuto.auto).set .right LengthOrPercentageOrAuto.auto

/-- a block-level box with all its offsets `auto` (not those of its contents); out-of-flow
boxes are unchanged -/
def BlockLevelBox.withoutOffsets : BlockLevelBox → BlockLevelBox
  | .sameFormattingContextBlock s c => .sameFormattingContextBlock s.withoutOffsets c
  | .independent s c => .independent s.withoutOffsets c
  | b => b

mutual

/-- inline-level boxes with all offsets `auto`; out-of-flow boxes are unchanged -/
def InlineLevelBox.withoutOffsets : InlineLevelBox → InlineLevelBox
  | .inlineBox s f l children => .inlineBox s.withoutOffsets f l (inlineWithoutOffsets children)
  | .textRun s t font => .textRun s.withoutOffsets t font
  | b => b

/-- inline-level boxes with all offsets `auto`; out-of-flow boxes are unchanged -/
def inlineWithoutOffsets : List InlineLevelBox → List InlineLevelBox
  | [] => []
  | b :: bs => b.withoutOffsets :: inlineWithoutOffsets bs

end

/-- moves a box with its padding, border and margin; what is in it is positioned relative
to it -/
def BoxGeom.moveBy (d : Vec2 Length) (g : BoxGeom) : BoxGeom :=
  { g with contentRect := ⟨⟨g.contentRect.startCorner.inline + d.inline,
      g.contentRect.startCorner.block + d.block⟩, g.contentRect.size⟩ }

/-- `MovedInline cb all fs' fs`: the contents `fs'` of a line of a paragraph without offsets
and `fs` of the same line with offsets are the same, except that boxes are moved as their
offsets say, each relative to the box it is in.  If `all` is false, the horizontal shift may
be missing. -/
inductive MovedInline (cb : ContainingBlock) (all : Bool) : List Fragment → List Fragment → Prop
  | nil : MovedInline cb all [] []
  | text {style r t fs' fs} : MovedInline cb all fs' fs →
      MovedInline cb all (.text style.withoutOffsets r t :: fs') (.text style r t :: fs)
  | box {style g m ch' ch fs' fs d} :
      d.block = (relativeShift style cb.inlineSize (cb.blockSize.autoIs 0)).block →
      (d.inline = (relativeShift style cb.inlineSize (cb.blockSize.autoIs 0)).inline ∨
        (all = false ∧ d.inline = 0)) →
      MovedInline cb all ch' ch → MovedInline cb all fs' fs →
      MovedInline cb all (.box style.withoutOffsets g m ch' :: fs')
        (.box style (g.moveBy d) m ch :: fs)

/-- line boxes with the same place and size, their contents as in `MovedInline` -/
def MovedLine (cb : ContainingBlock) (all : Bool) : Fragment → Fragment → Prop
  | .anonymous r' cs' m', .anonymous r cs m => r' = r ∧ m' = m ∧ MovedInline cb all cs' cs
  | _, _ => False

end Sinab
