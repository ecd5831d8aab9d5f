import Verif.Spec.Read
import Verif.Spec.Vertical
import Verif.Lemmas.InlineCtx

/-! Vocabulary for comparing the lines of the same text on a narrow and on a wide page. -/

namespace Sinab

/-- Widths of texts: nothing has no width, a text is not narrower than a part of it, and a
space adds no more than `sp`. -/
structure Spaced (W : Text → ℚ) (sp : ℚ) : Prop where
  empty : W [] = 0
  part : ∀ a b c, W b ≤ W (a ++ b ++ c)
  space : ∀ t, W (t ++ [' ']) ≤ W t + sp

/-- `u` is a whole word of `a ++ u ++ b`. -/
def WholeWord (a u b : Text) : Prop :=
  u ≠ [] ∧ Unbreakable u ∧ (a = [] ∨ ∃ q c, a = q ++ [c] ∧ isBreakChar c) ∧
    (b = [] ∨ ∃ c r, b = c :: r ∧ isBreakChar c)

/-- A text of words with single spaces between them.  No word is narrower than `sp`, and
every word fits a line of width `w` with a space in front of it. -/
structure EvenText (W : Text → ℚ) (sp w : ℚ) (t : Text) : Prop where
  hyphen : '-' ∉ t
  newline : '\n' ∉ t
  single : ∀ a b, t ≠ a ++ ' ' :: ' ' :: b
  wide : ∀ a u b, t = a ++ u ++ b → WholeWord a u b → sp ≤ W u
  fits : ∀ a u b, t = a ++ u ++ b → Unbreakable u → W (' ' :: u) ≤ w

mutual

/-- Inline content without margins, borders and padding, of which all texts are broken to
lines and are even (see `EvenText`). -/
def InlineLevelBox.even (E : TextEnv) (sp w : ℚ) : InlineLevelBox → Prop
  | .inlineBox st _ _ ks => (∀ v, startSpace v st = 0 ∧ endSpace v st = 0) ∧ inlineEven E sp w ks
  | .textRun st t f => st.wraps = true ∧ Spaced (E.width f) sp ∧ EvenText (E.width f) sp w t
  | _ => True

/-- see `InlineLevelBox.even` -/
def inlineEven (E : TextEnv) (sp w : ℚ) : List InlineLevelBox → Prop
  | [] => True
  | b :: bs => b.even E sp w ∧ inlineEven E sp w bs

end

mutual

/-- Inline content of which all texts extend `A` above and `D` below the same baseline. -/
def InlineLevelBox.level (A D : ℚ) : InlineLevelBox → Prop
  | .inlineBox st _ _ ks => (∀ own parent, shiftOf st own parent = 0) ∧ inlineLevel A D ks
  | .textRun st _ f => ascentOf st f = A ∧ descentOf st f = D
  | _ => True

/-- see `InlineLevelBox.level` -/
def inlineLevel (A D : ℚ) : List InlineLevelBox → Prop
  | [] => True
  | b :: bs => b.level A D ∧ inlineLevel A D bs

end

open Vertical in
/-- Margins, padding and borders above and below do not depend on the width of the block
around it, and the width does not shrink when that grows. -/
structure Steady (style : Style) : Prop where
  marginTop : ∀ v v', marginIn v (style.val .marginTop) = marginIn v' (style.val .marginTop)
  marginBottom : ∀ v v', marginIn v (style.val .marginBottom) = marginIn v' (style.val .marginBottom)
  above : ∀ v v', spaceIn v (style.val .paddingTop) + spaceIn v (style.val .borderTopWidth) =
    spaceIn v' (style.val .paddingTop) + spaceIn v' (style.val .borderTopWidth)
  below : ∀ v v', spaceIn v (style.val .paddingBottom) + spaceIn v (style.val .borderBottomWidth) =
    spaceIn v' (style.val .paddingBottom) + spaceIn v' (style.val .borderBottomWidth)
  width : ∀ v v', v ≤ v' → widthIn v style ≤ widthIn v' style

mutual

/-- In a block of width `w`: all blocks are steady, and all texts are even and of one height
(see `Steady`, `inlineEven`, `inlineLevel`). -/
def BlockLevelBox.fluid (E : TextEnv) (w : ℚ) : BlockLevelBox → Prop
  | .sameFormattingContextBlock style c => Steady style ∧ c.fluid E (Vertical.widthIn w style)
  | .independent style (.mk c _) => Steady style ∧ c.fluid E (Vertical.widthIn w style)
  | _ => True

/-- see `BlockLevelBox.fluid` -/
def BlockContainer.fluid (E : TextEnv) (w : ℚ) : BlockContainer → Prop
  | .blockLevelBoxes bs => blocksFluid E w bs
  | .inlineFormattingContext _ ibs =>
    0 ≤ w ∧ inlineAbsOk ibs ∧ ∃ sp A D, inlineEven E sp w ibs ∧ inlineLevel A D ibs

/-- see `BlockLevelBox.fluid` -/
def blocksFluid (E : TextEnv) (w : ℚ) : List BlockLevelBox → Prop
  | [] => True
  | b :: bs => b.fluid E w ∧ blocksFluid E w bs

end

namespace Vertical

mutual

/-- the same blocks, with lines that are not higher than those of the other -/
def VBox.shorter : VBox → VBox → Prop
  | .out, .out => True
  | .block mt mb pt pb dy height root lines kids, .block mt' mb' pt' pb' dy' height' root' lines' kids' =>
    (mt = mt' ∧ mb = mb' ∧ pt = pt' ∧ pb = pb' ∧ dy = dy' ∧ height = height' ∧ root = root') ∧
    Option.Rel (· ≤ ·) lines lines' ∧ allShorter kids kids'
  | _, _ => False

/-- see `VBox.shorter` -/
def allShorter : List VBox → List VBox → Prop
  | [], [] => True
  | v :: vs, v' :: vs' => v.shorter v' ∧ allShorter vs vs'
  | _, _ => False

end

end Vertical

end Sinab
