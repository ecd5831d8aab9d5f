import Verif.Spec.Append
import Verif.Spec.Paint

/-! A page in which one paragraph is edited (C93). -/

namespace Sinab

mutual

/-- The second contents are the first ones, with `ibs'` instead of `ibs` as the words of one paragraph (with the style
`st`); `around` are the styles of the blocks around the paragraph, outermost first. -/
inductive Edited (st : Style) (ibs ibs' : List InlineLevelBox) : List Style → BlockContainer → BlockContainer → Prop
  | para : Edited st ibs ibs' [] (.inlineFormattingContext st ibs) (.inlineFormattingContext st ibs')
  | blocks (around : List Style) (A : List BlockLevelBox) (b b' : BlockLevelBox) (B : List BlockLevelBox)
    (h : EditedBlock st ibs ibs' around b b') :
    Edited st ibs ibs' around (.blockLevelBoxes (A ++ b :: B)) (.blockLevelBoxes (A ++ b' :: B))

/-- see `Edited`; that there are floats in a box may be new -/
inductive EditedBlock (st : Style) (ibs ibs' : List InlineLevelBox) : List Style → BlockLevelBox → BlockLevelBox → Prop
  | same (around : List Style) (s : Style) (c c' : BlockContainer) (h : Edited st ibs ibs' around c c') :
    EditedBlock st ibs ibs' (s :: around) (.sameFormattingContextBlock s c) (.sameFormattingContextBlock s c')
  | independent (around : List Style) (s : Style) (c c' : BlockContainer) (fl fl' : Bool)
    (h : Edited st ibs ibs' around c c') :
    EditedBlock st ibs ibs' (s :: around) (.independent s (.mk c fl)) (.independent s (.mk c' fl'))

end

/-- the geometry of a box, with a content that is higher by `e` -/
def BoxGeom.higher (g : BoxGeom) (e : Length) : BoxGeom :=
  { g with contentRect := { g.contentRect with size := { g.contentRect.size with block := g.contentRect.size.block + e } } }

/-- what becomes of a change of the height of the content of a block: it is a change of the height of the block, unless
its height is given -/
def Style.passesOn (s : Style) (e e' : Length) : Prop :=
  match s.val .height with
  | .auto => e' = e
  | .length _ => e' = 0
  | .percentage _ => e' = e ∨ e' = 0

mutual

/-- The places of everything in two contents as in `Edited`, of which the lines of the paragraph are `P` and `P'`, the
latter being higher by `d` and the contents as a whole by `e`: what comes before the paragraph is in the same place, what
comes after it is moved down by the change of the height of the blocks before it, nothing else changes. -/
inductive EditedFlow (P P' : List Fragment) (d : Length) :
    List Style → BlockContainer → BlockContainer → Length → List Fragment → List Fragment → Prop
  | para (st : Style) (ibs ibs' : List InlineLevelBox) :
    EditedFlow P P' d [] (.inlineFormattingContext st ibs) (.inlineFormattingContext st ibs') d P P'
  | blocks (around : List Style) (A : List BlockLevelBox) (b b' : BlockLevelBox) (B : List BlockLevelBox) (e : Length)
    (before : List Fragment) (f f' : Fragment) (after : List Fragment) (hA : before.length = A.length)
    (hB : after.length = B.length) (h : EditedBox P P' d around b b' e f f') :
    EditedFlow P P' d around (.blockLevelBoxes (A ++ b :: B)) (.blockLevelBoxes (A ++ b' :: B)) e
      (before ++ f :: after) (before ++ f' :: after.map (Fragment.translateBlock e))

/-- see `EditedFlow` -/
inductive EditedBox (P P' : List Fragment) (d : Length) :
    List Style → BlockLevelBox → BlockLevelBox → Length → Fragment → Fragment → Prop
  | same (around : List Style) (s : Style) (c c' : BlockContainer) (e e' : Length) (g : BoxGeom) (m : CollapsedBlockMargins)
    (cs cs' : List Fragment) (he : s.passesOn e e') (h : EditedFlow P P' d around c c' e cs cs') :
    EditedBox P P' d (s :: around) (.sameFormattingContextBlock s c) (.sameFormattingContextBlock s c') e'
      (.box s g m cs) (.box s (g.higher e') m cs')
  | independent (around : List Style) (s : Style) (c c' : BlockContainer) (fl fl' : Bool) (e e' : Length) (g : BoxGeom)
    (m : CollapsedBlockMargins) (cs cs' : List Fragment) (he : s.passesOn e e') (h : EditedFlow P P' d around c c' e cs cs') :
    EditedBox P P' d (s :: around) (.independent s (.mk c fl)) (.independent s (.mk c' fl')) e'
      (.box s g m cs) (.box s (g.higher e') m cs')

end

/-- a mark of a block around the paragraph: it is the same, or its lower edge is moved down by `d` -/
inductive Stretched (d : Length) : DrawCall → DrawCall → Prop
  | same (a : DrawCall) : Stretched d a a
  | rect (x y w h : Length) (c : RGBA) : Stretched d (.rect x y w h c) (.rect x y w (h + d) c)
  | bbox (x y w h : Length) : Stretched d (.bbox x y w h) (.bbox x y w (h + d))
  | line (p q p' q' : Length × Length) (c : RGBA) (w : Length) (s : LineStyle)
    (hp : p' = p ∨ p' = (p.1, p.2 + d)) (hq : q' = q ∨ q' = (q.1, q.2 + d)) :
    Stretched d (.line [p, q] c w s) (.line [p', q'] c w s)

end Sinab
