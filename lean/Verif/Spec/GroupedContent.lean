import Verif.Spec.Grouped
import Verif.Spec.EditedContent

/-! A document in which consecutive blocks are put in an element of their own (C94). -/

namespace Sinab

/-- white space that is collapsed -/
def Styled.blank : Styled → Bool
  | .text st t => !st.keepsSpace && t.all htmlSpace
  | _ => false

/-- blocks in the flow, with white space between them -/
def blocksOnly (L : List Styled) : Bool := L.all fun x => x.inFlowBlock || x.blank

/-- The second content of an element is the first one with the consecutive blocks of `L` (of which `ok` holds) put in an
element without margins, padding and borders; the white space between these blocks may differ. -/
inductive GroupedContent (ok : List Styled → Prop) : List Styled → List Styled → Prop
  | here (A L L' B : List Styled) (id : NodeId) (w : Style) (hw : w.Frameless) (ho : w.outOfFlow = false)
    (hs : ∃ x ∈ L.head?, x.inFlowBlock = true) (hL : blocksOnly L = true) (hL' : blocksOnly L' = true)
    (he : L'.filter Styled.inFlowBlock = L.filter Styled.inFlowBlock) (hk : ok L) :
    GroupedContent ok (A ++ (L ++ B)) (A ++ .elem id w .block .flow L' :: B)
  | block (A B : List Styled) (id : NodeId) (s : Style) (ins : DisplayInside) (cs cs' : List Styled)
    (ho : s.outOfFlow = false) (h : GroupedContent ok cs cs') :
    GroupedContent ok (A ++ .elem id s .block ins cs :: B) (A ++ .elem id s .block ins cs' :: B)

/-- the height of an element is not given as a percentage -/
def Styled.heightFree : Styled → Prop
  | .elem _ s .block _ _ => s.heightFree
  | _ => True

mutual

/-- the styles of all blocks in a content -/
def Styled.blockStyles : Styled → List Style
  | .other | .hidden _ | .text _ _ => []
  | .contents _ ks | .elem _ _ .inline _ ks => styledBlockStyles ks
  | .elem _ s .block _ ks => s :: styledBlockStyles ks

/-- `Styled.blockStyles` of all entries -/
def styledBlockStyles : List Styled → List Style
  | [] => []
  | c :: cs => c.blockStyles ++ styledBlockStyles cs

end

end Sinab
