import Verif.Spec.NewlineLines

/-! Texts with line break elements between them (C100). -/

namespace Sinab

/-- some texts with line break elements between them; there need not be a text between two of these -/
def brokenContent (s sb : Style) : List Text → Text → List Styled
  | [], last => if last = [] then [] else [.text s last]
  | t :: ts, last => (if t = [] then [] else [.text s t]) ++ .text sb ['\n'] :: brokenContent s sb ts last

end Sinab
