import Verif.Spec.Text

/-! Vocabulary for statements about the number of lines: every way of cutting a text to
lines.  Independent of the code: nothing says where a line has to be ended, only where it
may be ended, and that it must not be too wide. -/

namespace Sinab

/-- A line is not too wide: it fits, or it fits without the space, newline or hyphen at its
end. -/
def LineFits (W : Text → ℚ) (avail : ℚ) (t : Text) : Prop :=
  W t ≤ avail ∨ ∃ q c, t = q ++ [c] ∧ isBreakChar c ∧ W q ≤ avail

/-- `LineCut W full avail text pieces`: `text` is cut to `pieces`, none of them empty.  A
piece ends at the end of the text or behind a space, newline or hyphen; a newline is always
at the end of its piece; a piece is not too wide, or it is a single word with what is behind
it.  The first piece has the width `avail`, the others `full`. -/
inductive LineCut (W : Text → ℚ) (full : ℚ) : (avail : ℚ) → Text → List Text → Prop
  | nil {avail} : LineCut W full avail [] []
  | cons {avail t rest ts} : t ≠ [] → (rest = [] ∨ ∃ q c, t = q ++ [c] ∧ isBreakChar c) →
      '\n' ∉ t.dropLast → (LineFits W avail t ∨ Unbreakable t.dropLast) →
      LineCut W full full rest ts → LineCut W full avail (t ++ rest) (t :: ts)

/-- the lines that hold some of the text -/
def textLines (lines : List BrokenLine) : List BrokenLine := lines.filter (·.text ≠ [])

/-- only the first and the last line hold none of the text -/
def OnlyEndsEmpty (lines : List BrokenLine) : Prop :=
  ∀ (i : Nat) (l : BrokenLine), lines[i]? = some l → l.text = [] → i = 0 ∨ i + 1 = lines.length

end Sinab
