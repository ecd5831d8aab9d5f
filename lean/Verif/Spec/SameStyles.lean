import Verif.Model.Style

/-! Which rules of a style sheet have an influence on an element. -/

namespace Sinab

variable {S : SelectorEngine}

/-- `l` are the selectors of the rules of a style sheet, in order, each with the block of its rule.  (All blocks can be
read.) -/
inductive Listed (C : CssColors) : List (RawRule S) → List (S.Sel × Block) → Prop where
  | nil : Listed C [] []
  | error {rs : List (RawRule S)} {l : List (S.Sel × Block)} : Listed C rs l → Listed C (.error :: rs) l
  | rule {sels : List S.Sel} {items : List RawItem} {b : Block} {rs : List (RawRule S)} {l : List (S.Sel × Block)} :
      Block.parse C items = .ok b → Listed C rs l →
      Listed C (.rule sels items :: rs) (sels.map (fun sel => (sel, b)) ++ l)

/-- The selectors of specificity `k` that match the element `n` (or the matching of which fails), as the blocks that
they apply, in order. -/
def AppliesTo (d : Doc) (n : NodeId) (k : Nat) (l : List (S.Sel × Block)) : List (Except Panic Bool × Block) :=
  l.filterMap fun r =>
    if S.specificity r.1 = k then
      match S.matches_ r.1 d n with
      | .ok false => none
      | m => some (m, r.2)
    else none

/-- `n` is an element of the document -/
def FoundElement (d : Doc) (n : NodeId) : Prop := ∃ nd e, d.get n = .ok nd ∧ nd.data.asElement = some e

/-- two lists of rules apply the same blocks to each element, in the same order for each specificity -/
def SameInfluence (d : Doc) (l l' : List (S.Sel × Block)) : Prop :=
  ∀ n, FoundElement d n → ∀ k, AppliesTo d n k l = AppliesTo d n k l'

end Sinab
