import Verif.Spec.Spanned
import Verif.Spec.GroupedContent

/-! A document in which some words are put in a plain inline element (C96). -/

namespace Sinab

/-- an element that generates a box -/
def Styled.isElem : Styled → Bool
  | .elem .. => true
  | _ => false

/-- entries of an element and of a `span` of style `w` around them: text has the style of the element it is in -/
inductive Restyled (E : TextEnv) (w : Style) : Styled → Styled → Prop
  | text (s : Style) (t : Text) (h : s.SameText w) (hf : E.font s = E.font w) : Restyled E w (.text s t) (.text w t)
  | keep (s : Style) (t : Text) : Restyled E w (.text s t) (.text s t)
  | elem (id : NodeId) (s : Style) (o : DisplayOutside) (ins : DisplayInside) (ks : List Styled) :
    Restyled E w (.elem id s o ins ks) (.elem id s o ins ks)

/-- A place where a `span` may begin, after `A` and before `L`: at the beginning of an element or after a block, where
something for a line follows; before an inline element with text; between an element and text that does not begin with
white space. -/
inductive OpensSpan : List Styled → List Styled → Prop
  | first (A L₁ L₂ : List Styled) (y : Styled) (hA : A.all Styled.blank = true) (hL : L₁.all Styled.blank = true)
    (hy : y.makesLine = true) : OpensSpan A (L₁ ++ y :: L₂)
  | afterBlock (A₁ A L₁ L₂ : List Styled) (z y : Styled) (hz : z.inFlowBlock = true) (hA : A.all Styled.blank = true)
    (hL : L₁.all Styled.blank = true) (hy : y.makesLine = true) : OpensSpan (A₁ ++ z :: A) (L₁ ++ y :: L₂)
  | elem (A L : List Styled) (id : NodeId) (s : Style) (ins : DisplayInside) (ks : List Styled) (hk : shownAll [] ks ≠ []) :
    OpensSpan A (.elem id s .inline ins ks :: L)
  | text (A L : List Styled) (z : Styled) (s : Style) (c : Char) (t : Text) (hz : z.isElem = true)
    (hc : s.keepsSpace = true ∨ htmlSpace c = false) : OpensSpan (A ++ [z]) (.text s (c :: t) :: L)

/-- A place where a `span` may end, after `L` and before `B`: at the end of an element, before an element, or after
one. -/
def ClosesSpan (L B : List Styled) : Prop :=
  (∀ y ∈ B.head?, y.isElem = true) ∨ (∀ y ∈ L.getLast?, y.isElem = true)

/-- the places where a `span` may be put around `L` -/
def spanPlace (A L B : List Styled) : Prop := OpensSpan A L ∧ ClosesSpan L B

/-- The second content of an element of style `s` is the first one with some entries, which contain no blocks in the flow,
put in an inline element that is not marked in any way, somewhere: `ok` holds for the place. -/
inductive SpannedContent (E : TextEnv) (ok : List Styled → List Styled → List Styled → Prop) :
    Style → List Styled → List Styled → Prop
  | here (s : Style) (A L L' B : List Styled) (id : NodeId) (w : Style) (ins : DisplayInside) (hw : w.Unmarked)
    (hf : E.font w = E.font s) (hL : inlineOnlyAll L = true) (hr : List.Forall₂ (Restyled E w) L L') (hk : ok A L B) :
    SpannedContent E ok s (A ++ (L ++ B)) (A ++ .elem id w .inline ins L' :: B)
  | block (s0 : Style) (A B : List Styled) (id : NodeId) (s : Style) (ins : DisplayInside) (cs cs' : List Styled)
    (ho : s.outOfFlow = false) (h : SpannedContent E ok s cs cs') :
    SpannedContent E ok s0 (A ++ .elem id s .block ins cs :: B) (A ++ .elem id s .block ins cs' :: B)
  | lifted (s0 : Style) (A B : List Styled) (id : NodeId) (s : Style) (ins : DisplayInside) (cs cs' : List Styled)
    (ho : s.outOfFlow = true) (h : SpannedContent E ok s cs cs') :
    SpannedContent E ok s0 (A ++ .elem id s .block ins cs :: B) (A ++ .elem id s .block ins cs' :: B)
  | inline (s0 : Style) (A B : List Styled) (id : NodeId) (s : Style) (ins : DisplayInside) (cs cs' : List Styled)
    (hi : inlineOnlyAll cs = true) (h : SpannedContent E ok s cs cs') :
    SpannedContent E ok s0 (A ++ .elem id s .inline ins cs :: B) (A ++ .elem id s .inline ins cs' :: B)

end Sinab
