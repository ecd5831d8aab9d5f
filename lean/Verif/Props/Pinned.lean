import Verif.Spec.Pinned
import Verif.Lemmas.PinnedContent
import Verif.Props.Stands

/-! An absolutely positioned box looks the same wherever it stands in the source (C98). -/

namespace Sinab

open Sinab.Append
open Vertical (widthIn spaceIn)
open Horizontal (contentLeft)

theorem positioned_seen {E : TextEnv} {s : Style} {d : Bfc} {size : Vec2 Length} {f f' : Fragment} {fs fs' : List Fragment}
    {sz sz' v : PVec2 Length} (hu : uprightAll fs) (hu' : uprightAll fs') (h : PositionedIn E s d size f)
    (h' : PositionedIn E s d size f') (hg : s.heldAcross) (hf : Displays f v fs) (hf' : DisplaysOnly f' ⟨0, 0⟩ fs') :
    ∃ y pre post, visibleCalls (paintPage sz fs).calls =
      pre ++ (visibleCalls (paintPage sz' fs').calls).map (DrawCall.move ⟨v.x, v.y + y⟩) ++ post ∧ (s.heldDown → y = 0) := by
  obtain ⟨y, e, hy⟩ := h.unique h' hg
  subst e
  obtain ⟨hfu, k1⟩ := hf hu
  obtain ⟨-, k2⟩ := hf' hu'
  obtain ⟨pre, post, k3⟩ := k1 ⟨0, 0⟩
  refine ⟨-y, visibleCalls pre, visibleCalls post, ?_, fun hd => by rw [hy hd, neg_zero]⟩
  have p1 : (paintPage sz fs).calls = callsAt ⟨0, 0⟩ fs := by
    rw [paintPage, callsAt_own ⟨0, 0⟩ hu _ rfl]
  have p2 : (paintPage sz' fs').calls = callsAt ⟨0, 0⟩ fs' := by
    rw [paintPage, callsAt_own ⟨0, 0⟩ hu' _ rfl]
  have p3 : (⟨0, 0⟩ : PVec2 Length) + v = ⟨0, 0⟩ + ⟨0, 0⟩ + ⟨0, y⟩ + ⟨v.x, v.y + -y⟩ := by
    simp [pvec2_add]
  unfold visibleCalls
  rw [p1, p2, k2, k3, List.filter_append, List.filter_append, ← filter_move isMark_eye, callsAt_down _ _ hfu,
    ← callsAt_move _ ⟨0, y⟩ (fs := [f]) ⟨hfu, trivial⟩, ← callsAt_move _ ⟨v.x, v.y + -y⟩ (fs := [f]) ⟨hfu, trivial⟩, p3]

/-- C98: an absolutely positioned box that is positioned with respect to the page, at any depth and with anything around
it, looks exactly as on a page of the same size with nothing but this box, and in the same place.  What belongs to the
box is drawn consecutively.  (It must be said how far from the left or the right it is.  If it is not said how far from
the top or the bottom it is, it may be higher or lower.) -/
theorem C98_page (E : TextEnv) {c : BlockContainer} {s : Style} {d : Bfc} {floats floats' : Bool} {size : PVec2 Length}
    {fs own : List Fragment} (hs : c.sound) (hh : (s, d) ∈ c.held) (hg : s.heldAcross)
    (hf : rootLayout E (.mk c floats) size = .ok fs)
    (ho : rootLayout E (.mk (.blockLevelBoxes [.outOfFlowAbsolutelyPositionedBox s d]) floats') size = .ok own) :
    ∃ y pre post, visibleCalls (paintPage size fs).calls =
      pre ++ (visibleCalls (paintPage size own).calls).map (DrawCall.move ⟨0, y⟩) ++ post ∧ (s.heldDown → y = 0) := by
  obtain ⟨f, h1, h2⟩ := page_positioned E hs hf hh
  have hd : d.sound := by
    obtain ⟨_, _, rfl, rfl, _, h, _⟩ := h1
    exact h
  obtain ⟨f', h3, h4⟩ := alone_positioned (s := s) (d := d) E (c := .blockLevelBoxes
    [.outOfFlowAbsolutelyPositionedBox s d]) ⟨hd, trivial⟩ .here ho
  have := positioned_seen (sz := size) (sz' := size) (rootLayout_up hf) (rootLayout_up ho) h1 h3 hg h2 h4
  simpa using this

/-- C98 for a box that is positioned with respect to a relatively positioned block in the flow: it looks exactly as on a
page with nothing but this box that is as wide as the block with its padding (and that has a suitable height), at a
distance from the left that depends only on the blocks around the relatively positioned block. -/
theorem C98_relative (E : TextEnv) {b : BlockLevelBox} {c c' : BlockContainer} {s sr : Style} {d : Bfc} {floats : Bool}
    {size : PVec2 Length} {w x : Length} {fs : List Fragment} (hs : c.sound) (h : Stands b size.x 0 c w x)
    (hb : MadeOf b sr c') (hr : sr.val .position = Position.relative) (hh : (s, d) ∈ c'.held) (hg : s.heldAcross)
    (hf : rootLayout E (.mk c floats) size = .ok fs) :
    ∃ height, ∀ floats' own,
      rootLayout E (.mk (.blockLevelBoxes [.outOfFlowAbsolutelyPositionedBox s d]) floats')
        ⟨spaceIn w (sr.val .paddingLeft) + widthIn w sr + spaceIn w (sr.val .paddingRight), height⟩ = .ok own →
      ∃ y pre post, visibleCalls (paintPage size fs).calls = pre ++ (visibleCalls (paintPage ⟨spaceIn w (sr.val .paddingLeft) +
        widthIn w sr + spaceIn w (sr.val .paddingRight), height⟩ own).calls).map
          (DrawCall.move ⟨contentLeft false w x sr - spaceIn w (sr.val .paddingLeft), y⟩) ++ post := by
  have hu := rootLayout_up hf
  obtain ⟨⟨fc, abs⟩, h1, hf⟩ := bind_eq_ok.1 hf
  obtain ⟨more, -, hf⟩ := bind_eq_ok.1 hf
  cases hf
  obtain ⟨⟨fc0, abs0⟩, h2, h1⟩ := bind_eq_ok.1 h1
  cases h1
  obtain ⟨hsb, f, e, ⟨m, cb, rank, a, fl, o, rfl, hcb, hm, k1⟩, k2⟩ :=
    stands_shown E h _ _ _ _ _ _ _ _ rfl (by rfl) hs le_rfl h2
  have key : ∃ height fa y, PositionedIn E s d ⟨spaceIn cb.inlineSize (sr.val .paddingLeft) + widthIn cb.inlineSize sr +
        spaceIn cb.inlineSize (sr.val .paddingRight), height⟩ fa ∧
      ∀ x, Displays fa ⟨contentLeft false cb.inlineSize x sr - spaceIn cb.inlineSize (sr.val .paddingLeft) - x, y⟩ [f] := by
    cases m with
    | zero => cases k1
    | succ m =>
      rw [boxLayout] at k1
      cases hb with
      | same _ _ =>
        simp only [BlockLevelBox.depth] at hm
        exact relative_layout hsb (by omega) hr (fun cb abs coll fc out h => ⟨_, _, _, _, rfl, h⟩) k1 hh
      | independent _ _ fl' =>
        simp only [BlockLevelBox.depth, Bfc.depth] at hm
        refine relative_layout (n := m) (contents := fun cb nested _ => bfcLayout E (boxLayout E m) (.mk c' fl') cb rank nested)
          hsb (by omega) hr (fun cb abs coll fc out h => ?_) k1 hh
        obtain ⟨⟨fc1, a1⟩, e5, e4⟩ := bind_eq_ok.1 h
        cases e4
        exact ⟨_, _, _, fc1, rfl, e5⟩
  obtain ⟨height, fa, y, k3, k4⟩ := key
  refine ⟨height, fun floats' own ho => ?_⟩
  have hd : d.sound := by
    obtain ⟨_, _, rfl, rfl, _, h, _⟩ := k3
    exact h
  obtain ⟨f', h3, h4⟩ := alone_positioned (s := s) (d := d) E (c := .blockLevelBoxes
    [.outOfFlowAbsolutelyPositionedBox s d]) ⟨hd, trivial⟩ .here ho
  have k5 : Displays fa ⟨contentLeft false cb.inlineSize x sr - spaceIn cb.inlineSize (sr.val .paddingLeft), e + y⟩
      (fc0.fragments ++ more) := by
    intro hu
    obtain ⟨hfu, k6⟩ := k2.more [] more hu
    obtain ⟨hfa, k7⟩ := k4 x ⟨hfu, trivial⟩
    refine ⟨hfa, fun o => ?_⟩
    obtain ⟨pre, post, e1⟩ := k6 o
    obtain ⟨pre', post', e2⟩ := k7 (o + ⟨x - 0, e⟩)
    refine ⟨pre ++ pre', post' ++ post, ?_⟩
    have e3 : o + ⟨contentLeft false cb.inlineSize x sr - spaceIn cb.inlineSize (sr.val .paddingLeft), e + y⟩ =
        o + ⟨x - 0, e⟩ + ⟨contentLeft false cb.inlineSize x sr - spaceIn cb.inlineSize (sr.val .paddingLeft) - x, y⟩ := by
      simp only [pvec2_add, PVec2.mk.injEq]
      constructor <;> ring
    rw [e2, ← e3] at e1
    refine e1.trans ?_
    simp only [List.append_assoc]
  obtain ⟨y', pre, post, k6, -⟩ := positioned_seen (sz := size) hu (rootLayout_up ho) k3 h3 hg k5 h4
  exact ⟨_, pre, post, k6⟩

variable {E : TextEnv} {C C' : BoxContext} {kids kids' : NodeId → List NodeId} {st st' : Style} {cs cs' : List Styled}
  {b b' : Bfc} {size : PVec2 Length} {fs fs' : List Fragment}

/-- C98 for documents: an absolutely positioned element, at any depth but not in anything positioned or floating, looks
exactly as in a document of which nothing is seen but this element, on a page of the same size, and in the same
place.  (It must be said how far from the left or the right it is.  If it is not said how far from the top or the
bottom it is, it may be higher or lower.) -/
theorem C98_document (h : Page C E kids st cs b size fs) (h' : Page C' E kids' st' cs' b' size fs')
    (ho : st.outOfFlow = false) (ho' : st'.outOfFlow = false) (hp : st.val .position ≠ Position.relative)
    {id : NodeId} {s : Style} {ins : DisplayInside} {ks : List Styled}
    (ha : (Styled.elem id s .block ins ks).absolute = true) (hg : s.heldAcross)
    (hx : HeldContent (.elem id s .block ins ks) (unwrapAll cs)) (hs : st'.Frameless)
    (hl : LoneAbsolute (.elem id s .block ins ks) (unwrapAll cs')) :
    ∃ y pre post, visibleCalls (paintPage size fs).calls =
      pre ++ (visibleCalls (paintPage size fs').calls).map (DrawCall.move ⟨0, y⟩) ++ post ∧ (s.heldDown → y = 0) := by
  obtain ⟨root, hr, hid, hst, hsh⟩ := h.content
  obtain ⟨root', hr', hid', hst', hsh'⟩ := h'.content
  obtain ⟨n, hb⟩ := h.boxes
  obtain ⟨n', hb'⟩ := h'.boxes
  obtain ⟨-, e1⟩ := boxTree_eq h.forest hr hid hst h.shown ho hsh hb
  obtain ⟨-, e2⟩ := boxTree_eq h'.forest hr' hid' hst' h'.shown ho' hsh' hb'
  have hf : C'.fontOf = C.fontOf := by
    obtain ⟨_, _, _, _, _, _, rfl⟩ := h.context
    obtain ⟨_, _, _, _, _, _, rfl⟩ := h'.context
    rfl
  have hsound : b.sound := by
    obtain ⟨S, K, tokenize, ua, author, d, rfl⟩ := h.context
    exact boxTree_sound (styleSound_of K tokenize ua author d E) hb
  have hsound' : b'.sound := by
    obtain ⟨S, K, tokenize, ua, author, d, rfl⟩ := h'.context
    exact boxTree_sound (styleSound_of K tokenize ua author d E) hb'
  have g1 := containerOf_holds C ha hx st
  have g2 := containerOf_loneAbsolute C ha hl st'
  rw [← containerOf_unwrap rfl] at g1
  rw [← containerOf_unwrap hf] at g2
  have hfs := h.laidOut
  have hfs' := h'.laidOut
  subst e1 e2
  obtain ⟨f, h1, h2⟩ := page_positioned E hsound hfs (s := (absoluteBox C s ks).1) (d := (absoluteBox C s ks).2) (by
    simpa [BlockContainer.held, heldAll, BlockLevelBox.held, hp] using g1)
  obtain ⟨f', h3, h4⟩ := alone_positioned E hsound' (.independent _ _ _ hs g2) hfs'
  have := positioned_seen (sz := size) (sz' := size) (rootLayout_up hfs) (rootLayout_up hfs') h1 h3 hg h2 h4
  simpa [absoluteBox] using this

/-- the style of an absolutely positioned box for the examples -/
def pinnedStyle : Style :=
  ((plainStyle.set .position Position.absolute).set .left (.length 7)).set .backgroundColor (.rgba ⟨255, 0, 0, 255⟩)

/-- its contents: two words -/
def pinnedContents : Bfc :=
  .mk (.inlineFormattingContext plainStyle [.textRun plainStyle "ab cd".toList (blockEnv.font plainStyle)]) false

/-- a page with such a box with style `s` in a block with style `sr` -/
def pinnedPage (s sr : Style) : List BlockLevelBox :=
  [blockOf 4 5] ++ .sameFormattingContextBlock sr
    (.blockLevelBoxes [blockOf 3 0, .outOfFlowAbsolutelyPositionedBox s pinnedContents, blockOf 1 1]) :: [blockOf 1 1]

/-- a page with nothing but such a box -/
def pinnedAlone (s : Style) : List BlockLevelBox := [.outOfFlowAbsolutelyPositionedBox s pinnedContents]

example : (BlockContainer.blockLevelBoxes (pinnedPage pinnedStyle standsAround)).held = [(pinnedStyle, pinnedContents)] := by
  have hp : standsAround.val .position ≠ Position.relative := by decide +kernel
  simp [pinnedPage, BlockContainer.held, heldAll, BlockLevelBox.held, hp, blockOf, emptyBlock]

example : pinnedStyle.heldAcross ∧ ¬ pinnedStyle.heldDown ∧ (pinnedStyle.set .bottom (.length 3)).heldDown := by
  unfold Style.heldAcross Style.heldDown
  decide +kernel

/-- held at the left only: 29 pixels lower than alone … -/
example : visibleCalls (blocksDrawn (pinnedPage pinnedStyle standsAround) 100) =
    (visibleCalls (blocksDrawn (pinnedAlone pinnedStyle) 100)).map (DrawCall.move ⟨0, 29⟩) ∧
    (visibleCalls (blocksDrawn (pinnedAlone pinnedStyle) 100)).length = 2 := by decide +kernel

/-- … held at the bottom, too: in the same place … -/
example : visibleCalls (blocksDrawn (pinnedPage (pinnedStyle.set .bottom (.length 3)) standsAround) 100) =
    visibleCalls (blocksDrawn (pinnedAlone (pinnedStyle.set .bottom (.length 3))) 100) := by decide +kernel

/-- … and if the block around is relatively positioned, as on a page that is as wide as that block -/
example : visibleCalls (blocksDrawn (pinnedPage pinnedStyle (standsAround.set .position Position.relative)) 100) =
    (visibleCalls (blocksDrawn (pinnedAlone pinnedStyle) 80)).map (DrawCall.move ⟨20, 29⟩) ∧
    spaceIn 100 (standsAround.val .paddingLeft) + widthIn 100 standsAround + spaceIn 100 (standsAround.val .paddingRight) = 80 ∧
    contentLeft false 100 0 (standsAround.set .position Position.relative) - spaceIn 100 (standsAround.val .paddingLeft) = 20 := by
  decide +kernel

/-- the widths of the backgrounds in what is drawn -/
def paintedWidths (cs : List DrawCall) : List Length :=
  cs.filterMap fun
    | .rect _ _ w _ _ => some w
    | _ => none

theorem paintedWidths_move (v : PVec2 Length) (cs : List DrawCall) :
    paintedWidths (cs.map (DrawCall.move v)) = paintedWidths cs := by
  induction cs with
  | nil => rfl
  | cons c cs ih =>
    unfold paintedWidths at ih ⊢
    rw [List.map_cons, List.filterMap_cons, List.filterMap_cons, ih]
    cases c <;> rfl

/-- C98 is false for boxes of which it is said neither how far from the left nor how far from the right they are: such a
box extends from where it would be in the flow to the right edge of its containing block, so that its width
depends on the blocks around it. -/
theorem C98_across_false : ¬ ∀ (E : TextEnv) (c : BlockContainer) (s : Style) (d : Bfc) (floats floats' : Bool)
    (size : PVec2 Length) (fs own : List Fragment), c.sound → (s, d) ∈ c.held →
    rootLayout E (.mk c floats) size = .ok fs →
    rootLayout E (.mk (.blockLevelBoxes [.outOfFlowAbsolutelyPositionedBox s d]) floats') size = .ok own →
    ∃ x y pre post, visibleCalls (paintPage size fs).calls =
      pre ++ (visibleCalls (paintPage size own).calls).map (DrawCall.move ⟨x, y⟩) ++ post := by
  intro h
  have e1 : paintedWidths (visibleCalls (blocksDrawn (pinnedPage (pinnedStyle.set .left .auto) standsAround) 100)) = [80] := by
    decide +kernel
  have e2 : paintedWidths (visibleCalls (blocksDrawn (pinnedAlone (pinnedStyle.set .left .auto)) 100)) = [100] := by
    decide +kernel
  unfold blocksDrawn at e1 e2
  split at e1
  · rename_i fs hfs
    split at e2
    · rename_i own hown
      have hp : standsAround.val .position ≠ Position.relative := by decide +kernel
      obtain ⟨x, y, pre, post, k⟩ := h _ (.blockLevelBoxes (pinnedPage (pinnedStyle.set .left .auto) standsAround))
        (pinnedStyle.set .left .auto) pinnedContents _ _ ⟨100, 50⟩ _ _
        (by simp [BlockContainer.sound, blockSound, BlockLevelBox.sound, pinnedPage, blockOf, emptyBlock, pinnedContents,
          Bfc.sound, inlineSound, InlineLevelBox.sound])
        (by simp [pinnedPage, BlockContainer.held, heldAll, BlockLevelBox.held, hp, blockOf, emptyBlock]) hfs hown
      have k' := congrArg paintedWidths k
      rw [e1] at k'
      unfold paintedWidths at k'
      rw [List.filterMap_append, List.filterMap_append] at k'
      have k2 := paintedWidths_move ⟨x, y⟩ (visibleCalls (paintPage ⟨100, 50⟩ own).calls)
      rw [e2] at k2
      unfold paintedWidths at k2
      rw [k2] at k'
      have : (100 : ℚ) ∈ ([80] : List ℚ) := by rw [k']; simp
      revert this
      decide
    · cases e2
  · cases e1

/-- a document for the example: an absolutely positioned element in an inline element in a block -/
def pinnedDoc : Doc :=
  pageOf [.text "xy", .node "div" [.node "p" [.text "zz"], .text "v", .node "em" [.node "pin" [.text "ab cd"]]], .text "ef"]

/-- a document with nothing but this element -/
def pinnedLone : Doc := pageOf [.node "pin" [.text "ab cd"]]

/-- the style of this element -/
def pinnedPageStyle : Style := liftedPageStyle.set .left (.length 7)

/-- the element -/
def pinnedElement : Styled := .elem 0 pinnedPageStyle .block .flow [.text pinnedPageStyle "ab cd".toList]

theorem pinnedDoc_content : unwrapAll (rootContent pinnedDoc) =
    [] ++ .elem 0 (pageStyle grownFrom) .block .flow
      ([groupedText "xy"] ++ .elem 0 (pageStyle grownFrom) .block .flow
        ([groupedPara "zz", groupedText "v"] ++ .elem 0 grownInline .inline .flow ([] ++ pinnedElement :: []) :: []) ::
          [groupedText "ef"]) :: [] := by
  apply sameAll_eq
  decide +kernel

theorem pinnedLone_content : unwrapAll (rootContent pinnedLone) =
    [.elem 0 (pageStyle grownFrom) .block .flow [pinnedElement]] := by
  apply sameAll_eq
  decide +kernel

example : rootCheck pinnedDoc = true ∧ rootCheck pinnedLone = true := by decide +kernel

example : HeldContent pinnedElement (unwrapAll (rootContent pinnedDoc)) ∧
    LoneAbsolute pinnedElement (unwrapAll (rootContent pinnedLone)) ∧ pinnedElement.absolute = true := by
  rw [pinnedDoc_content, pinnedLone_content]
  have ho : (pageStyle grownFrom).outOfFlow = false := by decide +kernel
  have hp : (pageStyle grownFrom).val .position ≠ Position.relative := by decide +kernel
  refine ⟨.block _ _ _ _ _ _ ho hp (.block _ _ _ _ _ _ ho hp (.inline _ _ _ _ _ _ (.here _ _))), ?_, by decide +kernel⟩
  exact .inside _ _ _ _ (by constructor <;> decide +kernel) ho .here

example : (pageAt pinnedLone 30, pageAt pinnedDoc 30) =
    (some [("ab", 7, 68 / 5), ("cd", 7, 164 / 5)],
      some [("xy", 0, 68 / 5), ("zz", 0, 164 / 5), ("v", 0, 52), ("ef", 0, 356 / 5), ("ab", 7, 52), ("cd", 7, 356 / 5)]) := by
  decide +kernel

end Sinab
