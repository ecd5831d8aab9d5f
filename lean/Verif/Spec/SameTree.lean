import Verif.Spec.Selectors
import Verif.Model.Style

/-! When two documents say the same: the same elements and texts in the same places, whatever the
comments between them and the numbers of the nodes. -/

namespace Sinab

open Doc

/-- doctype, comment or processing instruction -/
def NodeData.Outside : NodeData → Prop
  | .doctype .. | .comment _ | .pi .. => True
  | _ => False

/-- the last of the nodes `l` is an element -/
def EndsInElement (d : Doc) (l : List NodeId) : Prop := ∃ a i, l = a ++ [i] ∧ IsElement d i

section

variable (txt : Text → Text → Prop) (ends : Prop) (d : Doc) (kids : NodeId → List NodeId) (d' : Doc) (kids' : NodeId → List NodeId)

/-- The nodes `l` of one document and `l'` of another are the same elements (with the same
attributes and children that are the same in turn) and texts in the same order, apart from
comments and the like.  Texts are the same if they are related by `txt`, which is equality except where
stated otherwise.  With `ends`, moreover, the children of an element end with an element in
both documents or in none. -/
inductive Alike : List NodeId → List NodeId → Prop
  | nil : Alike [] []
  | text {i i' l l' t t'} : (d.node i).data = .text t → (d'.node i').data = .text t' → txt t t' → Alike l l' →
    Alike (i :: l) (i' :: l')
  | elem {i i' l l' e} : ElementAt d i e → ElementAt d' i' e → Alike (kids i) (kids' i') →
    (ends → (EndsInElement d (kids i) ↔ EndsInElement d' (kids' i'))) → Alike l l' →
    Alike (i :: l) (i' :: l')
  | left {i l l'} : (d.node i).data.Outside → Alike l l' → Alike (i :: l) l'
  | right {i' l l'} : (d'.node i').data.Outside → Alike l l' → Alike l (i' :: l')

/-- The element `i` among the children of `p` is the element `i'` among the children of `p'`. -/
def SamePlace (p p' i i' : NodeId) : Prop :=
  ∃ a b a' b', kids p = a ++ i :: b ∧ kids' p' = a' ++ i' :: b' ∧
    Alike txt ends d kids d' kids' a a' ∧ Alike txt ends d kids d' kids' b b' ∧
    (∃ e, ElementAt d i e ∧ ElementAt d' i' e) ∧ Alike txt ends d kids d' kids' (kids i) (kids' i') ∧
    (ends → (EndsInElement d (kids i) ↔ EndsInElement d' (kids' i')))

/-- `i` of one document and `i'` of the other are the same element: they have the same place in
elements that are the same, from the document down. -/
inductive Counterpart : NodeId → NodeId → Prop
  | top {i i'} : SamePlace txt ends d kids d' kids' documentNodeId documentNodeId i i' → Counterpart i i'
  | inside {p p' i i'} : Counterpart p p' → SamePlace txt ends d kids d' kids' p p' i i' → Counterpart i i'

/-- The documents have the same elements and texts. -/
def SameTree : Prop := Alike txt ends d kids d' kids' (kids documentNodeId) (kids' documentNodeId)

end

/-- Whether a selector matches an element depends on the elements and texts of the document only, where texts
related by `txt` are not distinguished. -/
def SelectorEngine.ReadsTree (S : SelectorEngine) (txt : Text → Text → Prop) : Prop :=
  ∀ d kids d' kids', Reachable d → Reachable d' → d.WF kids → d'.WF kids' →
    SameTree txt False d kids d' kids' → ∀ i i', Counterpart txt False d kids d' kids' i i' →
    ∀ s, S.matches_ s d i = S.matches_ s d' i'

end Sinab
