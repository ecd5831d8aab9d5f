import Verif.Spec.GroupedContent
import Verif.Spec.Read

/-! A forced line break in a paragraph (C100). -/

namespace Sinab

/-- There is nothing to see in these contents but a paragraph with these boxes.  `wrapped`: there is a block around it. -/
inductive OnlyText (ps : Style) (bs : List InlineLevelBox) : (wrapped : Bool) → BlockContainer → Prop
  | here : OnlyText ps bs false (.inlineFormattingContext ps bs)
  | same (w : Bool) (s : Style) (c : BlockContainer) (hs : s.Frameless) (h : OnlyText ps bs w c) :
    OnlyText ps bs true (.blockLevelBoxes [.sameFormattingContextBlock s c])
  | independent (w : Bool) (s : Style) (c : BlockContainer) (floats : Bool) (hs : s.Frameless) (h : OnlyText ps bs w c) :
    OnlyText ps bs true (.blockLevelBoxes [.independent s (.mk c floats)])

mutual

/-- the height of the line boxes in a fragment, one below the other -/
def Fragment.linesHeight : Fragment → Length
  | .anonymous r _ _ => r.size.block
  | .box _ _ _ cs => linesHeightAll cs
  | .text .. => 0

/-- the height of the line boxes in fragments, one below the other -/
def linesHeightAll : List Fragment → Length
  | [] => 0
  | f :: fs => f.linesHeight + linesHeightAll fs

end

/-- the words of a text fit on a line of this width, if lines are broken in text of this style -/
def TextFits (E : TextEnv) (width : Length) (st : Style) (f : Font) (t : Text) : Prop :=
  st.wraps = true → WordsFit (E.width f) width t

/-- there is nothing to see in this content of an element of style `st` but the content `L` of an element of style `p` -/
inductive ContentText (p : Style) (L : List Styled) : (st : Style) → List Styled → Prop
  | here : ContentText p L p L
  | inside (st : Style) (id : NodeId) (s : Style) (ins : DisplayInside) (cs : List Styled) (hs : s.Frameless)
    (ho : s.outOfFlow = false) (h : ContentText p L s cs) : ContentText p L st [.elem id s .block ins cs]

/-- a text at the start of a line as it is shown, with white space collapsed where the style demands it -/
def startText (s : Style) (t : Text) : Text := if s.keepsSpace then t else squeeze true t

end Sinab
