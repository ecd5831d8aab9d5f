import Verif.Spec.Stands
import Verif.Spec.Spanned

/-! Absolutely positioned boxes and the blocks they are positioned in (C98). -/

namespace Sinab

/-- a block in the flow with style `s` and contents `c` -/
inductive MadeOf : BlockLevelBox → Style → BlockContainer → Prop
  | same (s : Style) (c : BlockContainer) : MadeOf (.sameFormattingContextBlock s c) s c
  | independent (s : Style) (c : BlockContainer) (floats : Bool) : MadeOf (.independent s (.mk c floats)) s c

/-- it is said how far from the left or from the right edge of its containing block a box is -/
def Style.heldAcross (s : Style) : Prop := s.val .left ≠ .auto ∨ s.val .right ≠ .auto

/-- it is said how far from the upper or from the lower edge of its containing block a box is -/
def Style.heldDown (s : Style) : Prop := s.val .top ≠ .auto ∨ s.val .bottom ≠ .auto

/-- an absolutely positioned element -/
def Styled.absolute : Styled → Bool
  | .elem _ s .block _ _ => (s.val .position).isAbsolutelyPositioned
  | _ => false

/-- the element `e` is in the content, at any depth, but not in anything positioned or floating in it -/
inductive HeldContent (e : Styled) : List Styled → Prop
  | here (A B : List Styled) : HeldContent e (A ++ e :: B)
  | inline (A B : List Styled) (id : NodeId) (s : Style) (ins : DisplayInside) (cs : List Styled) (h : HeldContent e cs) :
    HeldContent e (A ++ .elem id s .inline ins cs :: B)
  | block (A B : List Styled) (id : NodeId) (s : Style) (ins : DisplayInside) (cs : List Styled)
    (ho : s.outOfFlow = false) (hp : s.val .position ≠ Position.relative) (h : HeldContent e cs) :
    HeldContent e (A ++ .elem id s .block ins cs :: B)

/-- there is nothing to see in this content of an element but the absolutely positioned element `e` -/
inductive LoneAbsolute (e : Styled) : List Styled → Prop
  | here : LoneAbsolute e [e]
  | inside (id : NodeId) (s : Style) (ins : DisplayInside) (cs : List Styled) (hs : s.Frameless)
    (ho : s.outOfFlow = false) (h : LoneAbsolute e cs) : LoneAbsolute e [.elem id s .block ins cs]

/-- what is seen of what is drawn -/
def visibleCalls (cs : List DrawCall) : List DrawCall := cs.filter DrawCall.isMark

end Sinab
