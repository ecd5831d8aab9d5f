import Verif.Spec.Text

/-! Specification vocabulary for inline formatting contexts: which pieces of text and
which inline boxes are on which line (`Item`, `LaysOut`) and where they are
(`advance`, `extents`, `place`). -/

namespace Sinab

/-- What is on a line: a piece of text (`newline`: a newline character ends the line
behind it), or the part of an inline box that is on this line.  `onFirst`: it is the
first line of the box; `startEdge`, `endEdge`: start and end margin, border and padding
are here. -/
inductive Item where
  | text (style : Style) (font : Font) (text : Text) (newline : Bool)
  | box (style : Style) (onFirst startEdge endEdge : Bool) (items : List Item)

abbrev Line := List Item

/-- margin, border and padding at the start of an inline box -/
def startSpace (cbis : ℚ) (st : Style) : ℚ :=
  st.padding.inlineStart.percentageRelativeTo cbis +
    st.borderWidth.inlineStart.percentageRelativeTo cbis +
    (st.margin.inlineStart.percentageRelativeTo cbis).autoIs 0

/-- margin, border and padding at the end of an inline box -/
def endSpace (cbis : ℚ) (st : Style) : ℚ :=
  st.padding.inlineEnd.percentageRelativeTo cbis +
    st.borderWidth.inlineEnd.percentageRelativeTo cbis +
    (st.margin.inlineEnd.percentageRelativeTo cbis).autoIs 0

mutual
/-- where an item that starts at `x` ends -/
def Item.advance (E : TextEnv) (cbis : ℚ) : Item → ℚ → ℚ
  | .text _ font t _, x => if t = [] then x else x + E.width font t
  | .box st _ s e items, x =>
    let x1 := advance E cbis items (if s then x + startSpace cbis st else x)
    if e then x1 + endSpace cbis st else x1

/-- where items that start at `x` end -/
def advance (E : TextEnv) (cbis : ℚ) : List Item → ℚ → ℚ
  | [], x => x
  | i :: is, x => advance E cbis is (i.advance E cbis x)
end

/-- where the last of some lines ends, the first of which starts at `x` -/
def endPos (E : TextEnv) (cbis : ℚ) (x : ℚ) : List Line → ℚ
  | [] => x
  | [l] => advance E cbis l x
  | _ :: l :: L => endPos E cbis 0 (l :: L)

/-- Joins two pages: the first line of the second continues the last line of the first. -/
def joinLines : List Line → List Line → List Line
  | [], L => L
  | [a], [] => [a]
  | [a], b :: B => (a ++ b) :: B
  | a :: a' :: A, L => a :: joinLines (a' :: A) L

/-- Puts an inline box around the contents of lines: one box part per line, the start
edge on the first, the end edge on the last line. -/
def decorate (st : Style) (onFirst start last : Bool) : List Line → List Line
  | [] => []
  | [l] => [[.box st onFirst start last l]]
  | l :: l' :: L => [.box st onFirst start false l] :: decorate st false false last (l' :: L)

/-- `LaysOut E cbis x boxes lines`: inline-level boxes are broken to lines in a
containing block of width `cbis`, if the first line starts at `x`.  Text is broken by
the rules of `RunPieces` for the width that is left. -/
inductive LaysOut (E : TextEnv) (cbis : ℚ) : ℚ → List InlineLevelBox → List Line → Prop
  | nil {x} : LaysOut E cbis x [] [[]]
  | text {x st t font bs pieces L} : RunPieces E st font cbis (cbis - x) t pieces →
      LaysOut E cbis (endPos E cbis x (pieces.map fun p => [Item.text st font p.1 p.2])) bs L →
      LaysOut E cbis x (.textRun st t font :: bs)
        (joinLines (pieces.map fun p => [Item.text st font p.1 p.2]) L)
  | box {x st first last children bs L1 L2} :
      LaysOut E cbis (if first then x + startSpace cbis st else x) children L1 →
      LaysOut E cbis (endPos E cbis x (decorate st true first last L1)) bs L2 →
      LaysOut E cbis x (.inlineBox st first last children :: bs)
        (joinLines (decorate st true first last L1) L2)
  | abs {x st c bs L} : LaysOut E cbis x bs L →
      LaysOut E cbis x (.outOfFlowAbsolutelyPositionedBox st c :: bs) L
  | float {x st c bs L} : LaysOut E cbis x bs L →
      LaysOut E cbis x (.outOfFlowFloatBox st c :: bs) L

/-- downward shift of an inline box against its parent by `vertical-align`; the height of an `x` is half the font size -/
def shiftOf (style : Style) (own parent : Font) : ℚ :=
  match (style.val .verticalAlign : VerticalAlign) with
  | .sub => parent.ascent / 2
  | .super => -(parent.ascent / 2)
  | .middle => own.descent - parent.size / 4
  | .length up => -up
  | .percentage p => -(p * LengthOrPercentageOrNumber.relativeTo (style.val .fontSize)
      (style.val .lineHeight))
  | .baseline | .top | .textTop | .bottom | .textBottom => 0

/-- height of a line of text of this style -/
def lineHeightOf (style : Style) : ℚ :=
  LengthOrPercentageOrNumber.relativeTo (style.val .fontSize) (style.val .lineHeight)

/-- extent above the baseline: ascent and half the leading -/
def ascentOf (style : Style) (font : Font) : ℚ :=
  font.ascent + (lineHeightOf style - (font.ascent + font.descent)) / 2

/-- extent below the baseline: descent and half the leading -/
def descentOf (style : Style) (font : Font) : ℚ :=
  font.descent + (lineHeightOf style - (font.ascent + font.descent)) / 2

mutual
/-- Extents of all texts of an item above and below the baseline of the line.
`shift` is how far the enclosing box is shifted down. -/
def Item.extents (E : TextEnv) : Item → (parent : Font) → (shift : ℚ) → List (ℚ × ℚ)
  | .text st font t newline, _, shift =>
    if t ≠ [] ∨ newline = true then [(ascentOf st font - shift, descentOf st font + shift)] else []
  | .box st _ _ _ items, parent, shift =>
    extents E items (E.font st) (shift + shiftOf st (E.font st) parent)

def extents (E : TextEnv) : List Item → (parent : Font) → (shift : ℚ) → List (ℚ × ℚ)
  | [], _, _ => []
  | i :: is, parent, shift => i.extents E parent shift ++ extents E is parent shift
end

/-- the largest of 0 and some numbers -/
def maxAll (l : List ℚ) : ℚ := l.foldr max 0

/-- extent of the line above its baseline -/
def lineAscent (E : TextEnv) (root : Font) (l : Line) : ℚ :=
  maxAll ((extents E l root 0).map (·.1))

/-- extent of the line below its baseline -/
def lineDescent (E : TextEnv) (root : Font) (l : Line) : ℚ :=
  maxAll ((extents E l root 0).map (·.2))

/-- height of the line box -/
def lineHeight (E : TextEnv) (root : Font) (l : Line) : ℚ :=
  lineAscent E root l + lineDescent E root l

/-- sides of a box part of which the start or end may be on other lines -/
def cutSides (s e : Bool) (m : Sides Length) : Sides Length :=
  { inlineStart := if s then m.inlineStart else 0, inlineEnd := if e then m.inlineEnd else 0
    blockStart := m.blockStart, blockEnd := m.blockEnd }

/-- margins of an inline box, `auto` being 0 -/
def inlineMargin (cbis : ℚ) (st : Style) : Sides Length :=
  (st.margin.percentagesOrAutoRelativeTo cbis).autoIs 0

mutual
/-- The fragments of an item that starts at `x`, relative to a box that starts at
`origin` and has font `parent`. -/
def Item.place (E : TextEnv) (cb : ContainingBlock) : Item → (parent : Font) → (origin x : ℚ) →
    List Fragment
  | .text st font t _, _, origin, x =>
    if t = [] then [] else
      [.text st ⟨⟨x - origin, 0⟩, ⟨E.width font t, ascentOf st font + descentOf st font⟩⟩
        ⟨font, t, some (E.width font t)⟩]
  | .box st onFirst s e items, parent, origin, x =>
    let x0 := if s then x + startSpace cb.inlineSize st else x
    let own := E.font st
    let rel := relativeAdjustement st cb.inlineSize cb.blockSize
    [.box st
      { contentRect :=
          ⟨⟨x0 - origin + (if onFirst then rel.inline else 0),
            shiftOf st own parent + rel.block + (parent.ascent - own.ascent)⟩,
           ⟨advance E cb.inlineSize items x0 - x0, own.ascent + own.descent⟩⟩
        padding := cutSides s e (st.padding.percentagesRelativeTo cb.inlineSize)
        border := cutSides s e (st.borderWidth.percentagesRelativeTo cb.inlineSize)
        margin := cutSides s e (inlineMargin cb.inlineSize st) }
      .zero (place E cb items own x0 x0)]

def place (E : TextEnv) (cb : ContainingBlock) : List Item → (parent : Font) → (origin x : ℚ) →
    List Fragment
  | [], _, _, _ => []
  | i :: is, parent, origin, x =>
    i.place E cb parent origin x ++ place E cb is parent origin (i.advance E cb.inlineSize x)
end

/-- The line boxes of a page, the first at height `y`. -/
def placeLines (E : TextEnv) (cb : ContainingBlock) (align : TextAlign) (root : Font) :
    (y : ℚ) → List Line → List Fragment
  | _, [] => []
  | y, l :: L =>
    .anonymous
      ⟨⟨(cb.inlineSize - advance E cb.inlineSize l 0) * align.fraction, y⟩,
       ⟨cb.inlineSize, lineHeight E root l⟩⟩
      ((place E cb l root 0 0).map (Fragment.translateBlock (lineAscent E root l - root.ascent)))
      cb.mode :: placeLines E cb align root (y + lineHeight E root l) L

/-- sum of the heights of lines -/
def pageHeight (E : TextEnv) (root : Font) (L : List Line) : ℚ := (L.map (lineHeight E root)).sum

end Sinab
