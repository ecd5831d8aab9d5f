import Verif.Spec.Boxes
import Verif.Spec.Paint

/-! Vocabulary for statements about backgrounds and borders: which elements have boxes that are
drawn, the parts of these boxes, and how they look. -/

namespace Sinab

/-- an element with a box, on its own (`block`) or in lines of text (`inline`) -/
abbrev Boxed := Style × DisplayOutside

mutual

/-- the elements that have boxes, in document order: without hidden ones, those without a box of
their own, and everything in floats -/
def Styled.boxed : Styled → List Boxed
  | .other | .text _ _ | .hidden _ => []
  | .contents _ ks => boxedAll ks
  | .elem _ s .inline _ ks => (s, .inline) :: boxedAll ks
  | .elem _ s .block _ ks =>
    if !(s.val .position).isAbsolutelyPositioned && (s.val .float).isFloating then []
    else (s, .block) :: boxedAll ks

/-- `Styled.boxed` of all entries -/
def boxedAll : List Styled → List Boxed
  | [] => []
  | c :: cs => c.boxed ++ boxedAll cs

end

/-- the elements with boxes of a page whose root element has this style and content -/
def boxedPage (st : Style) (cs : List Styled) : List Boxed :=
  if st.val .display = .none ∨
    (!(st.val .position).isAbsolutelyPositioned && (st.val .float).isFloating) = true then []
  else (st, .block) :: boxedAll cs

/-- `border-…-width` -/
def Style.edgeWidth (st : Style) : Side → LengthOrPercentage
  | .top => st.val .borderTopWidth
  | .right => st.val .borderRightWidth
  | .bottom => st.val .borderBottomWidth
  | .left => st.val .borderLeftWidth

/-- the width of a border: a percentage refers to a width -/
def LengthOrPercentage.amount (base : ℚ) : LengthOrPercentage → ℚ
  | .length l => l
  | .percentage p => p * base

/-- the border widths of a part of a box -/
abbrev Part := Side → ℚ

/-- a part that has all borders -/
def Style.wholePart (st : Style) (base : ℚ) : Part := fun s => (st.edgeWidth s).amount base

/-- a part without left or right border -/
def Part.cut (p : Part) (left right : Bool) : Part
  | .left => if left then p .left else 0
  | .right => if right then p .right else 0
  | s => p s

/-- The parts of the box of an element: a box is in one part; an inline box may also be broken over
lines, then its first part has the left border and its last part the right border. -/
inductive PartsOf : Boxed → List Part → Prop
  | whole (b : Boxed) (base : ℚ) : PartsOf b [b.1.wholePart base]
  | broken (st : Style) (base : ℚ) (n : Nat) : PartsOf (st, .inline)
      ((st.wholePart base).cut true false ::
        List.replicate n ((st.wholePart base).cut false false) ++
        [(st.wholePart base).cut false true])

/-- how a background or border looks, wherever it is -/
inductive Look where
  | fill (color : RGBA)
  | edge (color : RGBA) (width : ℚ) (style : LineStyle)
  deriving DecidableEq, Repr

/-- the look of a call -/
def DrawCall.look : DrawCall → Option Look
  | .rect _ _ _ _ c => some (.fill c)
  | .line _ c w ls => some (.edge c w ls)
  | _ => none

/-- how a part of a box looks: its background unless it is transparent, and the borders that have a
width and a style -/
def Style.looks (st : Style) (p : Part) : List Look :=
  (if (st.resolved (st.val .backgroundColor)).a = 0 then []
    else [.fill (st.resolved (st.val .backgroundColor))]) ++
  [Side.top, .right, .bottom, .left].filterMap fun s =>
    if 0 < p s ∧ st.edgeStyle s ≠ .none then
      some (.edge (st.resolved (st.edgeColor s)) (p s) (st.edgeStyle s))
    else none

/-- how a box looks that is in these parts -/
def partLooks (b : Boxed × List Part) : List Look := b.2.flatMap b.1.1.looks

end Sinab
