import Verif.Spec.Inline
import Verif.Spec.Decor

/-! Vocabulary for statements about where texts are on a page: the area of a text, the order in
which texts are read, and elements that do not move texts out of that order. -/

namespace Sinab

/-- a text that is drawn: its left end `x` and its baseline `base`, from the top left of the page -/
structure TextBox where
  style : Style
  font : Font
  text : Text
  x : ℚ
  base : ℚ

namespace TextBox

/-- how it is drawn -/
def call (t : TextBox) : DrawCall :=
  .text (String.ofList t.text) t.x t.base t.font.gc (t.style.val .color)

/-- its right end -/
def right (E : TextEnv) (t : TextBox) : ℚ := t.x + E.width t.font t.text

/-- half of what `line-height` adds to the height of the font -/
def halfLeading (t : TextBox) : ℚ :=
  (lineHeightOf t.style - (t.font.ascent + t.font.descent)) / 2

/-- where its part of the line begins -/
def top (t : TextBox) : ℚ := t.base - t.font.ascent - t.halfLeading

/-- where its part of the line ends -/
def bottom (t : TextBox) : ℚ := t.base + t.font.descent + t.halfLeading

end TextBox

/-- is it a text? -/
def DrawCall.isText : DrawCall → Bool
  | .text .. => true
  | _ => false

/-- texts on one line, from left to right, that do not overlap -/
def LeftToRight (E : TextEnv) (row : List TextBox) : Prop :=
  row.Pairwise fun s t => s.right E ≤ t.x

/-- all of `a` is above all of `b` -/
def Above (a b : List TextBox) : Prop := ∀ s ∈ a, ∀ t ∈ b, s.bottom ≤ t.top

/-- texts in rows: each from left to right, the rows from top to bottom -/
def ReadingOrder (E : TextEnv) (ts : List TextBox) : Prop :=
  ∃ rows : List (List TextBox), rows.flatten = ts ∧ (∀ r ∈ rows, LeftToRight E r) ∧
    rows.Pairwise Above

/-- a length that is not negative -/
def LengthOrPercentage.Nonneg : LengthOrPercentage → Prop
  | .length l => 0 ≤ l
  | .percentage _ => False

/-- `auto` or a length that is not negative -/
def LengthOrPercentageOrAuto.Nonneg : LengthOrPercentageOrAuto → Prop
  | .length l => 0 ≤ l
  | .percentage _ => False
  | .auto => True

/-- An element that keeps texts in order: it is not positioned and its margins, paddings and
borders are not negative; if it is a block, its height is that of its contents. -/
def Calm (e : Boxed) : Prop :=
  e.1.val .position = .static ∧
  match e.2 with
  | .block => e.1.val .height = .auto ∧
    (LengthOrPercentageOrAuto.Nonneg (e.1.val .marginTop) ∧
      LengthOrPercentageOrAuto.Nonneg (e.1.val .marginBottom)) ∧
    (LengthOrPercentage.Nonneg (e.1.val .paddingTop) ∧
      LengthOrPercentage.Nonneg (e.1.val .paddingBottom)) ∧
    LengthOrPercentage.Nonneg (e.1.val .borderTopWidth) ∧
      LengthOrPercentage.Nonneg (e.1.val .borderBottomWidth)
  | .inline =>
    (LengthOrPercentageOrAuto.Nonneg (e.1.val .marginLeft) ∧
      LengthOrPercentageOrAuto.Nonneg (e.1.val .marginRight)) ∧
    (LengthOrPercentage.Nonneg (e.1.val .paddingLeft) ∧
      LengthOrPercentage.Nonneg (e.1.val .paddingRight)) ∧
    LengthOrPercentage.Nonneg (e.1.val .borderLeftWidth) ∧
      LengthOrPercentage.Nonneg (e.1.val .borderRightWidth)

end Sinab
