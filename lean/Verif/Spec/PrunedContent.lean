import Verif.Spec.Pruned
import Verif.Spec.GroupedContent

/-! A document from which an element that is out of flow is removed (C95). -/

namespace Sinab

/-- A place in the content of an element, between `A` and `B`: at the end or directly before a block, after a block (and
white space), or before the first block (and white space). -/
def nextToBlock (A B : List Styled) : Prop :=
  (∀ y ∈ B.head?, y.inFlowBlock = true) ∨
  (∃ A₁ y A₂, A = A₁ ++ y :: A₂ ∧ y.inFlowBlock = true ∧ A₂.all Styled.blank = true) ∨
  (∃ B₁ y B₂, B = B₁ ++ y :: B₂ ∧ y.inFlowBlock = true ∧ B₁.all Styled.blank = true ∧ A.all Styled.blank = true)

/-- The second content is the first one without one element, which is absolutely positioned or a float; `ok` holds for
its place. -/
inductive PrunedContent (ok : List Styled → List Styled → Prop) : List Styled → List Styled → Prop
  | here (A B : List Styled) (id : NodeId) (s : Style) (ins : DisplayInside) (ks : List Styled) (ho : s.outOfFlow = true)
    (hk : ok A B) : PrunedContent ok (A ++ .elem id s .block ins ks :: B) (A ++ B)
  | block (A B : List Styled) (id : NodeId) (s : Style) (ins : DisplayInside) (cs cs' : List Styled)
    (ho : s.outOfFlow = false) (h : PrunedContent ok cs cs') :
    PrunedContent ok (A ++ .elem id s .block ins cs :: B) (A ++ .elem id s .block ins cs' :: B)

end Sinab
