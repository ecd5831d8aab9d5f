import Verif.Spec.Boxes

/-! What the height of the page has an influence on (C88). -/

namespace Sinab

/-- placed from the right edge of its containing block only -/
def Style.fromRight (s : Style) : Prop := s.val .left = .auto ∧ s.val .right ≠ .auto

/-- placed from the bottom edge of its containing block only -/
def Style.fromBottom (s : Style) : Prop := s.val .top = .auto ∧ s.val .bottom ≠ .auto

instance (s : Style) : Decidable s.fromRight := by unfold Style.fromRight; infer_instance
instance (s : Style) : Decidable s.fromBottom := by unfold Style.fromBottom; infer_instance

/-- `height` is not a percentage -/
def Style.heightGiven (s : Style) : Prop := ∀ p, s.val .height ≠ .percentage p

/-- the style of a box that is in the flow -/
def BlockLevelBox.flowStyle : BlockLevelBox → Option Style
  | .sameFormattingContextBlock s _ | .independent s _ => some s
  | .outOfFlowAbsolutelyPositionedBox _ _ | .outOfFlowFloatBox _ _ => none

/-- the fragment, moved to the right and down -/
def Fragment.movedBy (x y : ℚ) : Fragment → Fragment
  | .box s g m cs => .box s { g with contentRect := { g.contentRect with startCorner :=
      ⟨g.contentRect.startCorner.inline + x, g.contentRect.startCorner.block + y⟩ } } m cs
  | .anonymous r cs m => .anonymous { r with startCorner := ⟨r.startCorner.inline + x, r.startCorner.block + y⟩ } cs m
  | .text s r t => .text s { r with startCorner := ⟨r.startCorner.inline + x, r.startCorner.block + y⟩ } t

mutual

/-- the styles of the absolutely positioned elements that are placed on the page: those that are not inside of
another absolutely positioned element, nor of a relatively positioned block (floats are not shown at all) -/
def Styled.onPage : Styled → List Style
  | .other => []
  | .text _ _ => []
  | .hidden _ => []
  | .contents _ ks => onPageAll ks
  | .elem _ _ .inline _ ks => onPageAll ks
  | .elem _ st .block _ ks =>
    if (st.val .position).isAbsolutelyPositioned then [st]
    else if (st.val .float).isFloating then []
    else if st.val .position = Position.relative then []
    else onPageAll ks

/-- see `Styled.onPage` -/
def onPageAll : List Styled → List Style
  | [] => []
  | c :: cs => c.onPage ++ onPageAll cs

end

end Sinab
