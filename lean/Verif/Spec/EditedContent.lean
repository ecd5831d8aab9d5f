import Verif.Spec.Boxes
import Verif.Spec.Page

/-! A document in which the words of one paragraph are edited (C93). -/

namespace Sinab

mutual

/-- what an entry of the content contributes, without comments, hidden elements and the identity of elements; elements
of which only the contents are displayed are replaced by these -/
def Styled.unwrap : Styled → List Styled
  | .other | .hidden _ => []
  | .text st t => [.text st t]
  | .contents _ ks => unwrapAll ks
  | .elem _ s o i ks => [.elem 0 s o i (unwrapAll ks)]

/-- `Styled.unwrap` of all entries -/
def unwrapAll : List Styled → List Styled
  | [] => []
  | c :: cs => c.unwrap ++ unwrapAll cs

end

mutual

/-- texts and inline elements that contain nothing else -/
def Styled.linear : Styled → Bool
  | .text _ _ => true
  | .elem _ _ .inline .flow ks => linearAll ks
  | _ => false

/-- `Styled.linear` for all entries -/
def linearAll : List Styled → Bool
  | [] => true
  | c :: cs => c.linear && linearAll cs

end

/-- there is something to put on a line: an inline element, or text that is not only white space that is collapsed -/
def Styled.makesLine : Styled → Bool
  | .text st t => if st.keepsSpace then !t.isEmpty else t.any fun c => !htmlSpace c
  | .elem _ _ .inline _ _ => true
  | _ => false

/-- the words of a paragraph -/
def isParagraph (ks : List Styled) : Bool := linearAll ks && ks.any Styled.makesLine

/-- a block in the flow -/
def Styled.inFlowBlock : Styled → Bool
  | .elem _ s .block _ _ => !s.outOfFlow
  | _ => false

/-- The contents of two elements of the same style (given), of which the second has the words `ks'` instead of the words
`ks` somewhere: between two blocks, or from the beginning or to the end of an element (of style `st`); `around` are the
styles of the other elements around the words, outermost first. -/
inductive EditedContent (st : Style) (ks ks' : List Styled) : Style → List Style → List Styled → List Styled → Prop
  | here (A B : List Styled) (hA : ∀ x ∈ A.getLast?, x.inFlowBlock = true) (hB : ∀ x ∈ B.head?, x.inFlowBlock = true) :
    EditedContent st ks ks' st [] (A ++ (ks ++ B)) (A ++ (ks' ++ B))
  | block (s0 : Style) (around : List Style) (A B : List Styled) (id : NodeId) (s : Style) (ins : DisplayInside)
    (cs cs' : List Styled) (ho : s.outOfFlow = false) (h : EditedContent st ks ks' s around cs cs') :
    EditedContent st ks ks' s0 (s :: around) (A ++ .elem id s .block ins cs :: B) (A ++ .elem id s .block ins cs' :: B)

mutual

/-- nothing in this content is absolutely positioned -/
def Styled.unlifted : Styled → Bool
  | .other | .hidden _ | .text _ _ => true
  | .contents _ ks | .elem _ _ .inline _ ks => unliftedAll ks
  | .elem _ st .block _ ks => !(st.val .position).isAbsolutelyPositioned && unliftedAll ks

/-- `Styled.unlifted` for all entries -/
def unliftedAll : List Styled → Bool
  | [] => true
  | c :: cs => c.unlifted && unliftedAll cs

end

end Sinab
