import Verif.Model.SelectorMatch

/-! How specific a selector is (Selectors Level 3, section 9): three numbers that are compared one after the other.
Numbers above 1023 count as 1023, which the specification leaves open. -/

namespace Sinab

/-- ids -/
def SimpleSel.IsId : SimpleSel → Prop
  | .id _ => True
  | _ => False

/-- names of elements -/
def SimpleSel.IsName : SimpleSel → Prop
  | .type _ => True
  | _ => False

/-- `*`, alone or with a namespace -/
def SimpleSel.IsAny : SimpleSel → Prop
  | .universal | .noNamespace => True
  | _ => False

/-- the simple selectors of a selector, also those in `:not(…)`, from left to right -/
inductive ComplexSel.Consists : ComplexSel → List SimpleSel → Prop where
  | compound (ps : List SelPart) : Consists (.compound ps) (ps.map SelPart.simple)
  | comb (left : ComplexSel) (k : Combinator) (ps : List SelPart) (l : List SimpleSel) :
      Consists left l → Consists (.comb left k ps) (l ++ ps.map SelPart.simple)

/-- exactly `k` members of a list have a property -/
inductive HowMany (P : SimpleSel → Prop) : List SimpleSel → Nat → Prop where
  | nil : HowMany P [] 0
  | yes {x l k} : P x → HowMany P l k → HowMany P (x :: l) (k + 1)
  | no {x l k} : ¬ P x → HowMany P l k → HowMany P (x :: l) k

/-- the numbers of ids, of classes, attributes and pseudo-classes, and of element names, each at most 1023 -/
def ComplexSel.Counts (s : ComplexSel) (a b c : Nat) : Prop :=
  ∃ l a' b' c', s.Consists l ∧ HowMany SimpleSel.IsId l a' ∧
    HowMany (fun x => ¬ x.IsId ∧ ¬ x.IsName ∧ ¬ x.IsAny) l b' ∧ HowMany SimpleSel.IsName l c' ∧
    a = min a' 1023 ∧ b = min b' 1023 ∧ c = min c' 1023

/-- `s` is more specific than `t` -/
inductive MoreSpecific (s t : ComplexSel) : Prop where
  | ids {a b c a' b' c'} : s.Counts a b c → t.Counts a' b' c' → a' < a → MoreSpecific s t
  | classes {a b c b' c'} : s.Counts a b c → t.Counts a b' c' → b' < b → MoreSpecific s t
  | names {a b c c'} : s.Counts a b c → t.Counts a b c' → c' < c → MoreSpecific s t

/-- `s` is as specific as `t` -/
def AsSpecific (s t : ComplexSel) : Prop := ∃ a b c, s.Counts a b c ∧ t.Counts a b c

end Sinab
