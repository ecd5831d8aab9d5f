import Verif.Spec.Horizontal
import Verif.Props.Vertical

/-! Horizontal positions and widths of blocks (C79). -/

namespace Sinab

open Horizontal

namespace Horizontal

open Vertical

/-! ## One block -/

theorem borderRect_left (g : BoxGeom) : g.borderRect.startCorner.inline =
    g.contentRect.startCorner.inline - (g.padding.inlineStart + g.border.inlineStart) := by
  show g.contentRect.startCorner.inline - g.padding.inlineStart - g.border.inlineStart = _
  ring

theorem borderRect_width (g : BoxGeom) : g.borderRect.size.inline =
    (g.padding.inlineStart + g.border.inlineStart) + g.contentRect.size.inline +
      (g.padding.inlineEnd + g.border.inlineEnd) := by
  show g.contentRect.size.inline + g.padding.inlineSum + g.border.inlineSum = _
  unfold Sides.inlineSum
  ring

theorem sizes_left (cb : ContainingBlock) (style : Style) (kind : BlockLevelKind) :
    (inFlowSizes cb style kind).padding.inlineStart + (inFlowSizes cb style kind).border.inlineStart =
      spaceIn cb.inlineSize (style.val .paddingLeft) + spaceIn cb.inlineSize (style.val .borderLeftWidth) := by
  rw [← space_eq, ← space_eq]
  rfl

theorem sizes_right (cb : ContainingBlock) (style : Style) (kind : BlockLevelKind) :
    (inFlowSizes cb style kind).padding.inlineEnd + (inFlowSizes cb style kind).border.inlineEnd =
      spaceIn cb.inlineSize (style.val .paddingRight) + spaceIn cb.inlineSize (style.val .borderRightWidth) := by
  rw [← space_eq, ← space_eq]
  rfl

theorem sizes_margin (cb : ContainingBlock) (style : Style) (kind : BlockLevelKind) :
    (inFlowSizes cb style kind).margin.inlineStart = leftMargin false cb.inlineSize style := by
  have hl : style.margin.inlineStart = style.val .marginLeft := rfl
  have hr : style.margin.inlineEnd = style.val .marginRight := rfl
  have hw := sizes_width cb style kind
  have hb : style.boxSize.inline = style.val .width := rfl
  have hroom : cb.inlineSize - widthIn cb.inlineSize style -
      ((style.padding.percentagesRelativeTo cb.inlineSize) +
        (style.borderWidth.percentagesRelativeTo cb.inlineSize)).inlineSum = room cb.inlineSize style := by
    have : ((style.padding.percentagesRelativeTo cb.inlineSize) +
        (style.borderWidth.percentagesRelativeTo cb.inlineSize)).inlineSum =
        (inFlowSizes cb style kind).padding.inlineStart + (inFlowSizes cb style kind).border.inlineStart +
        ((inFlowSizes cb style kind).padding.inlineEnd + (inFlowSizes cb style kind).border.inlineEnd) := rfl
    rw [this, sizes_left, sizes_right]
    rfl
  unfold inFlowSizes leftMargin
  simp only [hb]
  cases hwv : style.val .width with
  | auto =>
    simp only [LengthOrPercentageOrAuto.percentageRelativeTo, Sides.autoIs, Sides.map, Sides.percentagesOrAutoRelativeTo,
      hl]
    cases style.val .marginLeft <;> rfl
  | length l =>
    have : widthIn cb.inlineSize style = l := by unfold widthIn; rw [hwv]
    rw [this] at hroom
    simp only [LengthOrPercentageOrAuto.percentageRelativeTo, solveInlineMargins, Sides.percentagesOrAutoRelativeTo,
      Sides.map, hl, hr]
    rw [hroom]
    cases style.val .marginLeft <;> cases style.val .marginRight <;> rfl
  | percentage p =>
    have : widthIn cb.inlineSize style = cb.inlineSize * p := by unfold widthIn; rw [hwv]
    rw [this] at hroom
    simp only [LengthOrPercentageOrAuto.percentageRelativeTo, solveInlineMargins, Sides.percentagesOrAutoRelativeTo,
      Sides.map, hl, hr]
    rw [hroom]
    cases style.val .marginLeft <;> cases style.val .marginRight <;> rfl

theorem shift_inline (style : Style) (w h k : Length) :
    (relativeShift style w h).inline = (relativeShift style w k).inline := by
  unfold relativeShift
  split <;> rfl

/-! ## Placing blocks -/

theorem acrossOf_move (b : BlockLevelBox) (style : Style) (g : BoxGeom) (m : CollapsedBlockMargins)
    (fs : List Fragment) (x d : Length) :
    acrossOf x b (.box style { g with contentRect := g.contentRect.addBlock d } m fs) =
      acrossOf x b (.box style g m fs) := by
  cases b with
  | independent st c => cases c; simp only [acrossOf]; rfl
  | sameFormattingContextBlock st c => simp only [acrossOf]; rfl
  | _ => simp only [acrossOf]

theorem acrossOf_other (x : Length) (b : BlockLevelBox) (r : Rect Length) (cs : List Fragment) (mode : Mode) :
    acrossOf x b (.anonymous r cs mode) = [] := by
  cases b with
  | independent st c => cases c; simp only [acrossOf]
  | _ => simp only [acrossOf]

theorem place_across {st st' : PlacementState} {f f' : Fragment} (e : placeFragment st f = .ok (f', st'))
    (b : BlockLevelBox) (x : Length) : acrossOf x b f' = acrossOf x b f := by
  cases f with
  | text => cases e
  | anonymous r cs mode =>
    simp only [placeFragment] at e
    split at e
    · cases e
    split at e
    · cases e
    cases e
    rw [acrossOf_other, acrossOf_other]
  | box style g m cs =>
    simp only [placeFragment] at e
    split at e
    · split at e
      · cases e
      split at e
      · cases e
        rfl
      · injection e with e
        injection e with e
        rw [← e, acrossOf_move]
    · injection e with e
      split at e <;> (injection e with e; rw [← e, acrossOf_move])

theorem placeAll_across : ∀ {fs fs' : List Fragment} {st st' : PlacementState} (_ : placeAll st fs = .ok (fs', st'))
    (bs : List BlockLevelBox) (x : Length), acrossAll x bs fs' = acrossAll x bs fs
  | [], _, _, _, e, _, _ => by
    cases e
    rfl
  | f :: fs, _, _, _, e, bs, x => by
    obtain ⟨⟨f', st1⟩, e1, e⟩ := bind_eq_ok.1 e
    obtain ⟨⟨fs', st2⟩, e2, e⟩ := bind_eq_ok.1 e
    cases e
    cases bs with
    | nil => simp only [acrossAll]
    | cons b bs => simp only [acrossAll, place_across e1, placeAll_across e2]

theorem placeAll_length' : ∀ {fs fs' : List Fragment} {st st' : PlacementState} (_ : placeAll st fs = .ok (fs', st')),
    fs'.length = fs.length
  | [], _, _, _, e => by
    cases e
    rfl
  | f :: fs, _, _, _, e => by
    obtain ⟨⟨f', st1⟩, e1, e⟩ := bind_eq_ok.1 e
    obtain ⟨⟨fs', st2⟩, e2, e⟩ := bind_eq_ok.1 e
    cases e
    simp only [List.length_cons, placeAll_length' e2]

theorem acrossAll_append (x : Length) : ∀ {bs : List BlockLevelBox} {fs : List Fragment} (more : List Fragment)
    (_ : fs.length = bs.length), acrossAll x bs (fs ++ more) = acrossAll x bs fs
  | [], _, _, _ => by simp only [acrossAll]
  | b :: bs, [], _, h => by cases h
  | b :: bs, f :: fs, more, h => by
    simp only [List.cons_append, acrossAll, acrossAll_append x (bs := bs) (fs := fs) more (by simpa using h)]

/-! ## Layout -/

/-- a block-level box has been laid out as it should be -/
def Right (w : Length) (b : BlockLevelBox) (f : Fragment) : Prop := ∀ x, acrossOf x b f = sidesOf false w x b

/-- a layout of boxes that is as it should be -/
def BoxesRight (boxL : BoxLayout) : Prop :=
  ∀ (b : BlockLevelBox) (cb : ContainingBlock) (rank : Nat) (abs out : List AbsFragment) (floats : Bool) (f : Fragment),
    boxL b cb rank abs floats = .ok (f, out) → Right cb.inlineSize b f

theorem right_all {w : Length} {bs : List BlockLevelBox} {fs : List Fragment} (h : List.Forall₂ (Right w) bs fs)
    (x : Length) : acrossAll x bs fs = sidesAll false w x bs := by
  induction h with
  | nil => simp only [acrossAll, sidesAll]
  | cons h1 _ ih => simp only [acrossAll, sidesAll, h1 x, ih]

theorem each_right {boxL : BoxLayout} (hb : BoxesRight boxL) {cb : ContainingBlock} : ∀ {bs : List BlockLevelBox}
    {rank : Nat} {abs out : List AbsFragment} {fs : List Fragment}, layoutEach boxL cb rank bs abs = .ok (fs, out) →
    List.Forall₂ (Right cb.inlineSize) bs fs
  | [], _, _, _, _, e => by
    cases e
    exact .nil
  | b :: bs, _, _, _, _, e => by
    obtain ⟨⟨f, a⟩, e1, e⟩ := bind_eq_ok.1 e
    obtain ⟨⟨fs, a'⟩, e2, e⟩ := bind_eq_ok.1 e
    cases e
    exact .cons (hb _ _ _ _ _ _ _ e1) (each_right hb e2)

theorem placeEach_right {boxL : BoxLayout} (hb : BoxesRight boxL) {cb : ContainingBlock} :
    ∀ {bs : List BlockLevelBox} {rank : Nat} {abs out : List AbsFragment} {fs : List Fragment}
      {st st' : PlacementState}, layoutAndPlaceEach boxL cb rank bs abs st = .ok (fs, out, st') →
    List.Forall₂ (Right cb.inlineSize) bs fs
  | [], _, _, _, _, _, _, e => by
    cases e
    exact .nil
  | b :: bs, _, _, _, _, _, _, e => by
    obtain ⟨⟨f, a⟩, e1, e⟩ := bind_eq_ok.1 e
    obtain ⟨⟨f', st1⟩, e2, e⟩ := bind_eq_ok.1 e
    obtain ⟨⟨fs', a', st2⟩, e3, e⟩ := bind_eq_ok.1 e
    cases e
    refine .cons (fun x => ?_) (placeEach_right hb e3)
    rw [place_across e2]
    exact hb _ _ _ _ _ _ _ e1 x

theorem children_right {boxL : BoxLayout} (hb : BoxesRight boxL) {cb : ContainingBlock} {bs : List BlockLevelBox}
    {rank : Nat} {abs out : List AbsFragment} {floats coll : Bool} {fc : FlowChildren}
    (e : layoutBlockLevelChildren boxL bs cb rank abs floats coll = .ok (fc, out)) :
    fc.fragments.length = bs.length ∧ ∀ x, acrossAll x bs fc.fragments = sidesAll false cb.inlineSize x bs := by
  obtain ⟨⟨fs', a, st⟩, e1, e⟩ := bind_eq_ok.1 e
  obtain ⟨adj, -, e⟩ := bind_eq_ok.1 e
  cases e
  cases floats with
  | true =>
    have := placeEach_right hb e1
    exact ⟨this.length_eq.symm, right_all this⟩
  | false =>
    obtain ⟨⟨fs, a1⟩, e2, e1⟩ := bind_eq_ok.1 e1
    obtain ⟨⟨fs1, st1⟩, e3, e1⟩ := bind_eq_ok.1 e1
    cases e1
    have := each_right hb e2
    refine ⟨(placeAll_length' e3).trans this.length_eq.symm, fun x => ?_⟩
    rw [placeAll_across e3]
    exact right_all this x

/-- `layoutInFlow` taken apart -/
theorem inFlow_across {absL : AbsLayout} {cb : ContainingBlock} {abs : List AbsFragment}
    {style : Style} {kind : BlockLevelKind} {contents} {f : Fragment} {out : List AbsFragment}
    (h : layoutInFlow absL cb abs style kind contents = .ok (f, out)) :
    ∃ fc a o more g m,
      contents ⟨widthIn cb.inlineSize style, heightIn cb.blockSize style, style.writingMode⟩ a
        (inFlowSizes cb style kind).startCollapses = .ok (fc, o) ∧
      f = .box style g m (fc.fragments ++ more) ∧
      ∀ x, sidesAt x g = sides false cb.inlineSize x style ∧
        x + g.contentRect.startCorner.inline = contentLeft false cb.inlineSize x style := by
  unfold layoutInFlow at h
  simp only at h
  split at h
  · cases h
  · obtain ⟨⟨fc, o⟩, h0, h⟩ := bind_eq_ok.1 h
    obtain ⟨children, h1, h⟩ := bind_eq_ok.1 h
    have hm : ∃ more, children = fc.fragments ++ more := by
      split at h1
      · exact inPositioned_more h1
      · cases h1
        exact ⟨[], by simp⟩
    obtain ⟨more, rfl⟩ := hm
    injection h with h
    injection h with h1 h2
    subst h1
    have hpb : (inFlowSizes cb style kind).pb.inlineStart = (inFlowSizes cb style kind).padding.inlineStart +
      (inFlowSizes cb style kind).border.inlineStart := rfl
    have hsh := shift_inline style (widthIn cb.inlineSize style) ((heightIn cb.blockSize style).autoIs 0) 0
    rw [C44_shift, sizes_width, sizes_height] at *
    refine ⟨fc, _, o, more, _, _, h0, rfl, fun x => ?_⟩
    simp only [sidesAt, borderRect_left, borderRect_width, sides, leftEdge, contentLeft, spaces, hpb, sizes_left,
      sizes_right, sizes_margin, Prod.mk.injEq, hsh]
    refine ⟨⟨?_, ?_⟩, ?_⟩ <;> ring

theorem boxesRight (E : TextEnv) : ∀ n, BoxesRight (boxLayout E n)
  | 0 => by
    intro b cb rank abs out floats f e
    cases e
  | n + 1 => by
    intro b cb rank abs out floats f e
    rw [boxLayout] at e
    cases b with
    | outOfFlowAbsolutelyPositionedBox style c =>
      cases e
      intro x
      simp only [acrossOf, sidesOf]
    | outOfFlowFloatBox style c =>
      cases e
      intro x
      simp only [acrossOf, sidesOf]
    | sameFormattingContextBlock style c =>
      simp only [boxLayoutWith] at e
      obtain ⟨fc, a, o, more, g, m, e1, rfl, hg⟩ := inFlow_across e
      intro x
      simp only [acrossOf, sidesOf, hg x]
      cases c with
      | blockLevelBoxes bs =>
        obtain ⟨hl, hc⟩ := children_right (boxesRight E n) e1
        simp only [acrossIn, sidesIn, acrossAll_append _ more hl, hc]
      | inlineFormattingContext st ibs => simp only [acrossIn, sidesIn]
    | independent style bfc =>
      cases bfc with
      | mk c fl =>
        simp only [boxLayoutWith] at e
        obtain ⟨fc', a, o, more, g, m, e1, rfl, hg⟩ := inFlow_across e
        obtain ⟨⟨fc, a'⟩, e2, e1⟩ := bind_eq_ok.1 e1
        cases e1
        intro x
        simp only [acrossOf, sidesOf, hg x]
        cases c with
        | blockLevelBoxes bs =>
          obtain ⟨hl, hc⟩ := children_right (boxesRight E n) e2
          simp only [acrossIn, sidesIn, acrossAll_append _ more hl, hc]
        | inlineFormattingContext st ibs => simp only [acrossIn, sidesIn]

/-! ## CSS -/

theorem leftMargin_css {w : Length} {style : Style} (h : centred w style) :
    leftMargin true w style = leftMargin false w style := by
  unfold leftMargin
  unfold centred at h
  cases hw : style.val .width <;> cases hl : style.val .marginLeft <;> simp only <;>
  · obtain ⟨hr, h0⟩ := h (by rw [hw]; simp) hl
    simp only [hr, Bool.true_and, Bool.false_and, Bool.false_eq_true, if_false]
    rw [if_neg]
    simpa using h0

mutual

theorem sidesOf_css : ∀ (b : BlockLevelBox) (w x : Length), centredOf w b → sidesOf true w x b = sidesOf false w x b
  | .sameFormattingContextBlock style c, w, x, h => by
    simp only [centredOf] at h
    simp only [sidesOf, sides, contentLeft, leftEdge, leftMargin_css h.1, sidesIn_css c _ _ h.2]
  | .independent style (.mk c _), w, x, h => by
    simp only [centredOf] at h
    simp only [sidesOf, sides, contentLeft, leftEdge, leftMargin_css h.1, sidesIn_css c _ _ h.2]
  | .outOfFlowAbsolutelyPositionedBox _ _, _, _, _ => by simp only [sidesOf]
  | .outOfFlowFloatBox _ _, _, _, _ => by simp only [sidesOf]

theorem sidesIn_css : ∀ (c : BlockContainer) (w x : Length), centredIn w c → sidesIn true w x c = sidesIn false w x c
  | .blockLevelBoxes bs, w, x, h => by
    simp only [centredIn] at h
    simp only [sidesIn, sidesAll_css bs w x h]
  | .inlineFormattingContext _ _, _, _, _ => by simp only [sidesIn]

theorem sidesAll_css : ∀ (bs : List BlockLevelBox) (w x : Length), centredAll w bs →
    sidesAll true w x bs = sidesAll false w x bs
  | [], _, _, _ => by simp only [sidesAll]
  | b :: bs, w, x, h => by
    simp only [centredAll] at h
    simp only [sidesAll, sidesOf_css b w x h.1, sidesAll_css bs w x h.2]

end

end Horizontal

/-! ## C79 -/

/-- C79 as stated: the edges are where CSS 2.1 puts them. -/
def C79_full : Prop :=
  ∀ (E : TextEnv) (bs : List BlockLevelBox) (floats : Bool) (viewport : PVec2 Length) (fs : List Fragment),
    rootLayout E (.mk (.blockLevelBoxes bs) floats) viewport = .ok fs →
    acrossAll 0 bs fs = sidesAll true viewport.x 0 bs

/-- C79 (part): on every page, the left and right edges of all blocks in the flow follow from the styles, as
CSS 2.1 says, except for blocks with a given width and an `auto` left margin: this margin takes all the
room if it is the only one that is `auto`, and may be negative. -/
theorem C79_positions_partial (E : TextEnv) (bs : List BlockLevelBox) (floats : Bool) (viewport : PVec2 Length)
    (fs : List Fragment) (h : rootLayout E (.mk (.blockLevelBoxes bs) floats) viewport = .ok fs) :
    acrossAll 0 bs fs = sidesAll false viewport.x 0 bs := by
  obtain ⟨⟨fc, abs⟩, e1, h⟩ := bind_eq_ok.1 h
  obtain ⟨more, -, h⟩ := bind_eq_ok.1 h
  cases h
  obtain ⟨⟨fc', a⟩, e2, e1⟩ := bind_eq_ok.1 e1
  cases e1
  obtain ⟨hl, hc⟩ := children_right (boxesRight E _) e2
  rw [acrossAll_append _ more hl]
  exact hc 0

/-- C79 (part): the edges are where CSS 2.1 puts them if blocks of a given width with an `auto` left margin also have an
`auto` right margin and are not too wide. -/
theorem C79_css_partial (E : TextEnv) (bs : List BlockLevelBox) (floats : Bool) (viewport : PVec2 Length)
    (fs : List Fragment) (h : rootLayout E (.mk (.blockLevelBoxes bs) floats) viewport = .ok fs)
    (hc : centredAll viewport.x bs) : acrossAll 0 bs fs = sidesAll true viewport.x 0 bs := by
  rw [sidesAll_css _ _ _ hc]
  exact C79_positions_partial E bs floats viewport fs h

/-- the edges of the blocks on a page, and those of `Horizontal.sidesAll` -/
def pageSides (css : Bool) (bs : List BlockLevelBox) : Option (List (Length × Length) × List (Length × Length)) :=
  match rootLayout blockEnv (.mk (.blockLevelBoxes bs) false) ⟨100, 50⟩ with
  | .ok fs => some (acrossAll 0 bs fs, sidesAll css 100 0 bs)
  | _ => none

/-- two blocks on a page of width 100: a centred one of width 150, and one of width 60 with a left margin `auto` and a
right margin of 5 -/
def wideBlocks : List BlockLevelBox :=
  [emptyBlock (((plainStyle.set .width (.length 150)).set .marginLeft .auto).set .marginRight .auto),
   emptyBlock (((plainStyle.set .width (.length 60)).set .marginLeft .auto).set .marginRight (.length 5))]

/-- C79 is false: a centred block that is too wide sticks out on the left, and a block that is pushed to the right
loses its right margin. -/
theorem C79_full_false : ¬ C79_full := by
  intro h
  have e : pageSides true wideBlocks = some ([(-25, 125), (40, 100)], [(0, 150), (35, 95)]) := by decide +kernel
  unfold pageSides at e
  split at e
  · rename_i fs hfs
    rw [h _ _ _ _ _ hfs] at e
    injection e with e
    injection e with e1 e2
    rw [e1] at e2
    revert e2
    decide +kernel
  · cases e

/-- percentages refer to the block around; padding and border are outside of the width; a centred block -/
example : pageSides true [.sameFormattingContextBlock (((plainStyle.set .marginLeft (.percentage (1/10))).set .paddingLeft
        (.length 4)).set .borderRightWidth (.length 2))
      (.blockLevelBoxes [emptyBlock ((plainStyle.set .width (.percentage (1/2))).set .marginLeft (.length (-3))),
        .sameFormattingContextBlock (((plainStyle.set .width (.length 20)).set .marginLeft .auto).set .marginRight .auto)
          (.inlineFormattingContext plainStyle [.textRun plainStyle "ab".toList ⟨16, 12, 4, 4, GCtx.new⟩])])] =
    some ([(10, 100), (11, 53), (46, 66)], [(10, 100), (11, 53), (46, 66)]) := by decide +kernel

/-- a shifted block takes along what is in it -/
example : pageSides true [.independent ((plainStyle.set .position .relative).set .right (.percentage (1/4)))
      (.mk (.blockLevelBoxes [emptyBlock (plainStyle.set .marginRight (.length 30))]) true), emptyBlock plainStyle] =
    some ([(-25, 75), (-25, 45), (0, 100)], [(-25, 75), (-25, 45), (0, 100)]) := by decide +kernel

end Sinab
