import Verif.Spec.AlignDrawn
import Verif.Spec.NewlineLines

/-! The texts drawn for preformatted text (C48). -/

namespace Sinab

/-- the texts that are drawn, in this order -/
def drawnStrings (l : List DrawCall) : List String :=
  l.filterMap fun
    | .text t _ _ _ _ => some t
    | _ => none

end Sinab
