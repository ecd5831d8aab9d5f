import Verif.Model.Inline
import Verif.Spec.Paint

/-! Where the texts of an aligned paragraph are (C51). -/

namespace Sinab

/-- the call draws a text of this colour in this font, and nothing else; on a line of this width the text is at the left,
at the right, in the middle or at this part of the room that is left, as the alignment says (texts are not justified) -/
def DrawCall.AlignedText (E : TextEnv) (width : Length) (a : TextAlign) (f : Font) (col : RGBA) (c : DrawCall) : Prop :=
  ∃ (u : Text) (x y : Length), u ≠ [] ∧ c = .text (String.ofList u) x y f.gc col ∧
    match a with
    | .left | .justify => x = 0
    | .right => x + E.width f u = width
    | .center => x = width - (x + E.width f u)
    | .percentage r => x = (width - E.width f u) * r

end Sinab
