import Verif.Spec.Boxes
import Verif.Spec.SameStyles
import Verif.Spec.Style
import Verif.Model.Paint

/-! Colours: styles, contents, style sheets and drawings that differ only in colours (C90). -/

namespace Sinab

/-- the properties that only say in which colour something is drawn -/
def Longhand.isColour : Longhand → Bool
  | .color | .backgroundColor | .borderTopColor | .borderRightColor | .borderBottomColor | .borderLeftColor => true
  | _ => false

/-- two styles that agree except for colours -/
structure Style.SameButColours (s t : Style) : Prop where
  val : ∀ p : Longhand, p.isColour = false → s.val p = t.val p
  specifiedDisplay : s.specifiedDisplay = t.specifiedDisplay

/-- two contents that agree except for colours -/
inductive Recoloured : List Styled → List Styled → Prop
  | nil : Recoloured [] []
  | other {cs cs'} : Recoloured cs cs' → Recoloured (.other :: cs) (.other :: cs')
  | text {s s' : Style} {t cs cs'} : s.SameButColours s' → Recoloured cs cs' →
    Recoloured (.text s t :: cs) (.text s' t :: cs')
  | hidden {i cs cs'} : Recoloured cs cs' → Recoloured (.hidden i :: cs) (.hidden i :: cs')
  | contents {i ks ks' cs cs'} : Recoloured ks ks' → Recoloured cs cs' →
    Recoloured (.contents i ks :: cs) (.contents i ks' :: cs')
  | elem {i} {s s' : Style} {o ins ks ks' cs cs'} : s.SameButColours s' → Recoloured ks ks' → Recoloured cs cs' →
    Recoloured (.elem i s o ins ks :: cs) (.elem i s' o ins ks' :: cs')

/-- the fonts of a device do not depend on colours -/
def TextEnv.IgnoresColours (E : TextEnv) : Prop := ∀ s t : Style, s.SameButColours t → E.font s = E.font t

/-- a text, a border line, or the area of a fragment (that only R sees), without its colour -/
inductive DrawnPlace where
  | text (label : String) (x y : Length) (font : GCtx)
  | line (points : List (Length × Length)) (width : Length) (style : LineStyle)
  | area (x y w h : Length)
  deriving DecidableEq

/-- What is drawn by a call, and where.  Background rectangles are left out: a background is not drawn if its colour is
transparent. -/
def DrawCall.place : DrawCall → Option DrawnPlace
  | .text label x y font _ => some (.text label x y font)
  | .rect .. => none
  | .line ps _ w st => some (.line ps w st)
  | .bbox x y w h => some (.area x y w h)

/-- the declarations of a block that are not about colours, with their importance -/
def Block.withoutColours (b : Block) : List (Decl × Bool) :=
  b.entries.filter fun e => !e.1.longhand.isColour

variable {S : SelectorEngine}

/-- What rules of specificity `k` that match the element `n` say except about colours, in order. -/
def Uncoloured (d : Doc) (n : NodeId) (k : Nat) (l : List (S.Sel × Block)) : List (Decl × Bool) :=
  (l.filter fun r => S.specificity r.1 = k ∧ S.matches_ r.1 d n = .ok true).flatMap (·.2.withoutColours)

/-- two lists of rules that say the same to each element except about colours -/
def SameButColours (d : Doc) (l l' : List (S.Sel × Block)) : Prop :=
  ∀ n, FoundElement d n → ∀ k, Uncoloured d n k l = Uncoloured d n k l'

end Sinab
