import Verif.Model.SelectorMatch
import Verif.Spec.Forest
import Mathlib.Logic.Relation

/-! What selectors select, in terms of the tree of elements (Selectors Level 3):
<https://www.w3.org/TR/selectors-3/>. -/

namespace Sinab

/-- `n` is the element `e` -/
def ElementAt (d : Doc) (n : NodeId) (e : ElementData) : Prop := (d.node n).data = .element e

/-- white space of HTML -/
def IsSpaceChar (c : Char) : Prop := c ∈ [' ', '\t', '\n', '\x0c', '\r']

/-- `w` is one of the white-space separated words of `a` -/
def WordOf (w a : Text) : Prop :=
  w ≠ [] ∧ (∀ c ∈ w, ¬ IsSpaceChar c) ∧ ∃ l r, a = l ++ w ++ r ∧
    (∀ c, l.getLast? = some c → IsSpaceChar c) ∧ (∀ c, r.head? = some c → IsSpaceChar c)

/-- the (first) attribute of a name in no namespace -/
def AttrIs (e : ElementData) (name : String) (v : Text) : Prop :=
  ∃ l a r, e.attrs = l ++ a :: r ∧ a.name.ns = "" ∧ a.name.localName = name ∧ a.value = v ∧
    ∀ b ∈ l, ¬ (b.name.ns = "" ∧ b.name.localName = name)

/-- the element has a class -/
def HasClass (e : ElementData) (v : Text) : Prop := ∃ a, AttrIs e "class" a ∧ WordOf v a

section
variable (d : Doc) (kids : NodeId → List NodeId)

/-- `n` is an element -/
def IsElement (n : NodeId) : Prop := ∃ e, ElementAt d n e

/-- the element `b` is a child of the element `a` -/
def ChildElement (a b : NodeId) : Prop := b ∈ kids a ∧ IsElement d a ∧ IsElement d b

/-- the element `b` is below the element `a` -/
def DescendantElement : NodeId → NodeId → Prop := Relation.TransGen (ChildElement d kids)

/-- the element `a` is a sibling in front of the element `b` -/
def EarlierSibling (a b : NodeId) : Prop :=
  IsElement d a ∧ IsElement d b ∧ ∃ p l₁ l₂ l₃, kids p = l₁ ++ a :: (l₂ ++ b :: l₃)

/-- … with no element between them -/
def AdjacentSibling (a b : NodeId) : Prop :=
  IsElement d a ∧ IsElement d b ∧ ∃ p l₁ l₂ l₃, kids p = l₁ ++ a :: (l₂ ++ b :: l₃) ∧
    ∀ c ∈ l₂, ¬ IsElement d c

/-- `es` are the members of `l` with a property, in order -/
def Chosen (P : NodeId → Prop) (l es : List NodeId) : Prop :=
  es.Sublist l ∧ (∀ x ∈ es, P x) ∧ ∀ x ∈ l, P x → x ∈ es

/-- there are exactly `i` nodes with a property in front of `n` and `j` behind it among its
siblings -/
def Place (P : NodeId → Prop) (n : NodeId) (i j : Nat) : Prop :=
  (∃ p l₁ l₂ es₁ es₂, kids p = l₁ ++ n :: l₂ ∧ Chosen P l₁ es₁ ∧ es₁.length = i ∧
    Chosen P l₂ es₂ ∧ es₂.length = j) ∨
  ((∀ p, n ∉ kids p) ∧ i = 0 ∧ j = 0)

/-- an element of the same type -/
def SameType (e : ElementData) (n : NodeId) : Prop :=
  ∃ e', ElementAt d n e' ∧ e'.name.ns = e.name.ns ∧ e'.name.localName = e.name.localName

/-- the `(an+b)`-th for some `n ≥ 0` -/
def InSeries (a b : Int) (i : Nat) : Prop := ∃ k : Nat, a * k + b = i + 1

/-- the element `e` at `n` is represented by a simple selector, where `cl` says which
classes an element has -/
def SelectsSimple (cl : ElementData → Text → Prop) (n : NodeId) (e : ElementData) : SimpleSel → Prop
  | .universal => True
  | .type name =>
    (e.name.ns = nsHtml ∧ e.name.localName = name.toLower) ∨
    (e.name.ns ≠ nsHtml ∧ e.name.localName = name)
  | .noNamespace => e.name.ns = ""
  | .id v => AttrIs e "id" v
  | .cls v => cl e v
  | .attr ns name op => ∃ a ∈ e.attrs, (∀ u, ns = some u → a.name.ns = u) ∧
    ((e.name.ns = nsHtml ∧ a.name.localName = name.toLower ∧ op true a.value = true) ∨
     (e.name.ns ≠ nsHtml ∧ a.name.localName = name ∧ op false a.value = true))
  | .root => ∀ p, ¬ ChildElement d kids p n
  | .empty => ∀ c ∈ kids n, ¬ IsElement d c ∧ ∀ t, (d.node c).data = .text t → t = []
  | .firstChild => ∀ a, ¬ EarlierSibling d kids a n
  | .lastChild => ∀ a, ¬ EarlierSibling d kids n a
  | .onlyChild => ∀ a, ¬ EarlierSibling d kids a n ∧ ¬ EarlierSibling d kids n a
  | .nthChild a b => ∃ i j, Place kids (IsElement d) n i j ∧ InSeries a b i
  | .nthLastChild a b => ∃ i j, Place kids (IsElement d) n i j ∧ InSeries a b j
  | .nthOfType a b => ∃ i j, Place kids (SameType d e) n i j ∧ InSeries a b i
  | .nthLastOfType a b => ∃ i j, Place kids (SameType d e) n i j ∧ InSeries a b j
  | .onlyOfType => Place kids (SameType d e) n 0 0

/-- the element at `n` is represented by a compound selector -/
def SelectsCompound (cl : ElementData → Text → Prop) (parts : List SelPart) (n : NodeId) : Prop :=
  ∃ e, ElementAt d n e ∧ ∀ part ∈ parts,
    (SelectsSimple d kids cl n e part.simple ↔ part.negated = false)

/-- what the combinators say about the elements on both sides -/
def Combines (k : Combinator) (a b : NodeId) : Prop :=
  match k with
  | .child => ChildElement d kids a b
  | .descendant => DescendantElement d kids a b
  | .nextSibling => AdjacentSibling d kids a b
  | .laterSibling => EarlierSibling d kids a b

/-- the element at `n` is represented by a selector, where `cl` says which classes an element
has -/
def SelectsWith (cl : ElementData → Text → Prop) : ComplexSel → NodeId → Prop
  | .compound parts, n => SelectsCompound d kids cl parts n
  | .comb left k parts, n => SelectsCompound d kids cl parts n ∧
    ∃ m, Combines d kids k m n ∧ SelectsWith cl left m

/-- the element at `n` is represented by a selector -/
def Selects : ComplexSel → NodeId → Prop := SelectsWith d kids HasClass

end

/-- a selector that does not compare types of siblings -/
def SimpleSel.TypeFree : SimpleSel → Prop
  | .nthOfType .. | .nthLastOfType .. | .onlyOfType => False
  | _ => True

/-- a selector without `:nth-of-type()` and its relatives -/
def ComplexSel.TypeFree (s : ComplexSel) : Prop := ∀ part ∈ s.parts, part.simple.TypeFree

/-- a selector without classes -/
def ComplexSel.NoClass (s : ComplexSel) : Prop := ∀ part ∈ s.parts, ∀ v, part.simple ≠ .cls v

/-- a selector that does not negate classes, and whose classes are words -/
def ComplexSel.PlainClasses (s : ComplexSel) : Prop := ∀ part ∈ s.parts, ∀ v, part.simple = .cls v →
  part.negated = false ∧ v ≠ [] ∧ ∀ c ∈ v, ¬ IsSpaceChar c

/-- every class attribute is one word -/
def SingleClasses (d : Doc) : Prop :=
  ∀ n e a, n < d.len → ElementAt d n e → AttrIs e "class" a → a ≠ [] ∧ ∀ c ∈ a, ¬ IsSpaceChar c

end Sinab
