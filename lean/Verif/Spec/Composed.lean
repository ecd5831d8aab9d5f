import Verif.Spec.Paint
import Verif.Model.Boxes
import Verif.Spec.GroupedContent

/-! A page that is composed of what is drawn for its blocks (C99). -/

namespace Sinab

/-- What is drawn for each of the blocks, one after the other, each as in `own` but moved down.  How far may depend on
the blocks before it and on the block itself, but not on the blocks after it. -/
def stackedCalls (own : BlockLevelBox → List DrawCall) (down : List BlockLevelBox → BlockLevelBox → Length) :
    List BlockLevelBox → List BlockLevelBox → List DrawCall
  | _, [] => []
  | before, b :: bs => (own b).map (DrawCall.move ⟨0, down before b⟩) ++ stackedCalls own down (before ++ [b]) bs

/-- what is drawn, and how far to the right, but not how far down -/
def DrawCall.level : DrawCall → DrawCall
  | .text t x _ f c => .text t x 0 f c
  | .rect x _ w h c => .rect x 0 w h c
  | .line ps c w s => .line (ps.map fun p => (p.1, p.2 - ((ps.head?.map Prod.snd).getD 0))) c w s
  | .bbox x _ w h => .bbox x 0 w h

/-- there is nothing to see in these contents but the blocks `bs` -/
inductive OnlyBlocks (bs : List BlockLevelBox) : BlockContainer → Prop
  | here : OnlyBlocks bs (.blockLevelBoxes bs)
  | same (s : Style) (c : BlockContainer) (hs : s.Frameless) (h : OnlyBlocks bs c) :
    OnlyBlocks bs (.blockLevelBoxes [.sameFormattingContextBlock s c])
  | independent (s : Style) (c : BlockContainer) (floats : Bool) (hs : s.Frameless) (h : OnlyBlocks bs c) :
    OnlyBlocks bs (.blockLevelBoxes [.independent s (.mk c floats)])

/-- there is nothing to see in this content of an element but the block-level elements `L`, one after the other -/
inductive ContentBlocks : List Styled → List Styled → Prop
  | here (cs : List Styled) (h : blocksOnly cs = true) : ContentBlocks (cs.filter Styled.inFlowBlock) cs
  | inside (L : List Styled) (id : NodeId) (s : Style) (ins : DisplayInside) (cs : List Styled) (hs : s.Frameless)
    (ho : s.outOfFlow = false) (h : ContentBlocks L cs) : ContentBlocks L [.elem id s .block ins cs]

end Sinab
