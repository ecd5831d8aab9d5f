import Verif.Spec.Horizontal
import Verif.Spec.GroupedContent

/-! A block in the flow of a page, and the room it has there (C97). -/

namespace Sinab

open Vertical (widthIn)
open Horizontal (contentLeft)

/-- In contents of width `w` that start at `x` the block `b` stands in the flow, at any depth, with the width `w'` for
it and its margins, from `x'` on.  Nothing is said about the other boxes; the widths and the edges follow from
the styles of the blocks around `b`, as in C79. -/
inductive Stands (b : BlockLevelBox) : (w x : Length) → BlockContainer → (w' x' : Length) → Prop
  | here (w x : Length) (bs bs' : List BlockLevelBox) : Stands b w x (.blockLevelBoxes (bs ++ b :: bs')) w x
  | same (w x : Length) (s : Style) (c : BlockContainer) (bs bs' : List BlockLevelBox) (w' x' : Length)
    (h : Stands b (widthIn w s) (contentLeft false w x s) c w' x') :
    Stands b w x (.blockLevelBoxes (bs ++ .sameFormattingContextBlock s c :: bs')) w' x'
  | independent (w x : Length) (s : Style) (c : BlockContainer) (floats : Bool) (bs bs' : List BlockLevelBox)
    (w' x' : Length) (h : Stands b (widthIn w s) (contentLeft false w x s) c w' x') :
    Stands b w x (.blockLevelBoxes (bs ++ .independent s (.mk c floats) :: bs')) w' x'

/-- there is nothing to see in these contents but the block `b` -/
inductive LoneBlock (b : BlockLevelBox) : BlockContainer → Prop
  | here : LoneBlock b (.blockLevelBoxes [b])
  | same (s : Style) (c : BlockContainer) (hs : s.Frameless) (h : LoneBlock b c) :
    LoneBlock b (.blockLevelBoxes [.sameFormattingContextBlock s c])
  | independent (s : Style) (c : BlockContainer) (floats : Bool) (hs : s.Frameless) (h : LoneBlock b c) :
    LoneBlock b (.blockLevelBoxes [.independent s (.mk c floats)])

/-- `Stands` for the content of an element: the block-level element `e` in it, in the flow -/
inductive StandsContent (e : Styled) : (w x : Length) → List Styled → (w' x' : Length) → Prop
  | here (w x : Length) (A B : List Styled) (he : e.inFlowBlock = true) : StandsContent e w x (A ++ e :: B) w x
  | inside (w x : Length) (A B : List Styled) (id : NodeId) (s : Style) (ins : DisplayInside) (cs : List Styled)
    (w' x' : Length) (ho : s.outOfFlow = false)
    (h : StandsContent e (widthIn w s) (contentLeft false w x s) cs w' x') :
    StandsContent e w x (A ++ .elem id s .block ins cs :: B) w' x'

/-- there is nothing to see in this content of an element but the block-level element `e` -/
inductive LoneContent (e : Styled) : List Styled → Prop
  | here (he : e.inFlowBlock = true) : LoneContent e [e]
  | inside (id : NodeId) (s : Style) (ins : DisplayInside) (cs : List Styled) (hs : s.Frameless)
    (ho : s.outOfFlow = false) (h : LoneContent e cs) : LoneContent e [.elem id s .block ins cs]

/-- nothing in the element is positioned with respect to something outside -/
def Styled.closed : Styled → Prop
  | .elem _ s _ _ ks => s.val .position = Position.relative ∨ unliftedAll ks = true
  | _ => True

end Sinab
