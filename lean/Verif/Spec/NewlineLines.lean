import Verif.Spec.Newline

/-! A text with any number of newlines (C100). -/

namespace Sinab

/-- some texts, one behind the other with newlines between them -/
def withNewlines : List Text → Text → Text
  | [], last => last
  | t :: ts, last => t ++ '\n' :: withNewlines ts last

/-- a page with nothing but a text -/
def textPage (E : TextEnv) (ps st : Style) (f : Font) (size : PVec2 Length) (t : Text) : Except Panic (List Fragment) :=
  rootLayout E (.mk (.inlineFormattingContext ps [.textRun st t f]) false) size

/-- what is drawn for some texts, each with a newline, and for a last one without, one below the other: `drawn` is what is
drawn for one of them, `height` is its height, and `y` is where the first one begins. -/
def oneBelowTheOther (drawn : Text → List DrawCall) (height : Text → Length) : (y : Length) → List Text → Text →
    List DrawCall
  | y, [], last => (drawn last).map (DrawCall.move ⟨0, y⟩)
  | y, t :: ts, last => (drawn (t ++ ['\n'])).map (DrawCall.move ⟨0, y⟩) ++
      oneBelowTheOther drawn height (y + height (t ++ ['\n'])) ts last

end Sinab
