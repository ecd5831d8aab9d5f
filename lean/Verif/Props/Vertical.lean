import Verif.Lemmas.Vertical
import Verif.Props.Relative
import Verif.Props.Block

/-! Vertical positions of blocks (C78). -/

namespace Sinab

open Vertical

namespace Vertical

/-! ## Sizes -/

theorem sizes_height (cb : ContainingBlock) (style : Style) (kind : BlockLevelKind) :
    (inFlowSizes cb style kind).blockSize = heightIn cb.blockSize style := by
  have hb : style.boxSize.block = style.val .height := rfl
  unfold heightIn usedHeight inFlowSizes
  simp only [hb]
  cases style.val .height <;> cases cb.blockSize <;> rfl

theorem sizes_top (cb : ContainingBlock) (style : Style) (kind : BlockLevelKind) :
    (inFlowSizes cb style kind).margin.blockStart = marginIn cb.inlineSize (style.val .marginTop) := by
  have hm : style.margin.blockStart = style.val .marginTop := rfl
  unfold inFlowSizes marginIn
  simp only
  cases style.boxSize.inline.percentageRelativeTo cb.inlineSize with
  | auto =>
    simp only [Sides.autoIs, Sides.map, Sides.percentagesOrAutoRelativeTo, hm]
    cases style.val .marginTop <;> rfl
  | length l =>
    simp only [solveInlineMargins]
    split <;> simp only [Sides.autoIs, Sides.map, Sides.percentagesOrAutoRelativeTo, hm] <;>
      cases style.val .marginTop <;> rfl

theorem sizes_bottom (cb : ContainingBlock) (style : Style) (kind : BlockLevelKind) :
    (inFlowSizes cb style kind).margin.blockEnd = marginIn cb.inlineSize (style.val .marginBottom) := by
  have hm : style.margin.blockEnd = style.val .marginBottom := rfl
  unfold inFlowSizes marginIn
  simp only
  cases style.boxSize.inline.percentageRelativeTo cb.inlineSize with
  | auto =>
    simp only [Sides.autoIs, Sides.map, Sides.percentagesOrAutoRelativeTo, hm]
    cases style.val .marginBottom <;> rfl
  | length l =>
    simp only [solveInlineMargins]
    split <;> simp only [Sides.autoIs, Sides.map, Sides.percentagesOrAutoRelativeTo, hm] <;>
      cases style.val .marginBottom <;> rfl

theorem space_eq (w : Length) (p : LengthOrPercentage) : p.percentageRelativeTo w = spaceIn w p := by
  cases p <;> rfl

theorem sizes_above (cb : ContainingBlock) (style : Style) (kind : BlockLevelKind) :
    (inFlowSizes cb style kind).padding.blockStart + (inFlowSizes cb style kind).border.blockStart =
      spaceIn cb.inlineSize (style.val .paddingTop) + spaceIn cb.inlineSize (style.val .borderTopWidth) := by
  rw [← space_eq, ← space_eq]
  rfl

theorem sizes_below (cb : ContainingBlock) (style : Style) (kind : BlockLevelKind) :
    (inFlowSizes cb style kind).padding.blockEnd + (inFlowSizes cb style kind).border.blockEnd =
      spaceIn cb.inlineSize (style.val .paddingBottom) + spaceIn cb.inlineSize (style.val .borderBottomWidth) := by
  rw [← space_eq, ← space_eq]
  rfl

theorem margin_eq (w : Length) (m : LengthOrPercentageOrAuto) :
    (m.percentageRelativeTo w).autoIs 0 = marginIn w m := by
  cases m <;> rfl

theorem sizes_width (cb : ContainingBlock) (style : Style) (kind : BlockLevelKind) :
    (inFlowSizes cb style kind).inlineSize = widthIn cb.inlineSize style := by
  have hw : style.boxSize.inline = style.val .width := rfl
  unfold inFlowSizes widthIn
  simp only [hw]
  cases style.val .width with
  | length l => rfl
  | percentage p => rfl
  | auto =>
    simp only [LengthOrPercentageOrAuto.percentageRelativeTo, LengthOrAuto.autoIs]
    rw [← margin_eq, ← margin_eq, ← space_eq, ← space_eq, ← space_eq, ← space_eq]
    show _ - ((style.padding.percentagesRelativeTo cb.inlineSize).inlineStart +
        (style.borderWidth.percentagesRelativeTo cb.inlineSize).inlineStart +
        ((style.padding.percentagesRelativeTo cb.inlineSize).inlineEnd +
        (style.borderWidth.percentagesRelativeTo cb.inlineSize).inlineEnd)) - (_ + _) = _
    have e1 : (style.padding.percentagesRelativeTo cb.inlineSize).inlineStart =
      LengthOrPercentage.percentageRelativeTo cb.inlineSize (style.val .paddingLeft) := rfl
    have e2 : (style.padding.percentagesRelativeTo cb.inlineSize).inlineEnd =
      LengthOrPercentage.percentageRelativeTo cb.inlineSize (style.val .paddingRight) := rfl
    have e3 : (style.borderWidth.percentagesRelativeTo cb.inlineSize).inlineStart =
      LengthOrPercentage.percentageRelativeTo cb.inlineSize (style.val .borderLeftWidth) := rfl
    have e4 : (style.borderWidth.percentagesRelativeTo cb.inlineSize).inlineEnd =
      LengthOrPercentage.percentageRelativeTo cb.inlineSize (style.val .borderRightWidth) := rfl
    have e5 : ((style.margin.percentagesOrAutoRelativeTo cb.inlineSize).autoIs 0).inlineStart =
      ((style.val .marginLeft).percentageRelativeTo cb.inlineSize).autoIs 0 := rfl
    have e6 : ((style.margin.percentagesOrAutoRelativeTo cb.inlineSize).autoIs 0).inlineEnd =
      ((style.val .marginRight).percentageRelativeTo cb.inlineSize).autoIs 0 := rfl
    rw [e1, e2, e3, e4, e5, e6]
    ring

/-! ## More fragments than boxes -/

theorem drawnOf_append (y : Length) {bs : List BlockLevelBox} {fs : List Fragment} (more : List Fragment)
    (h : fs.length = bs.length) : drawnOf y bs (fs ++ more) = drawnOf y bs fs := by
  induction bs generalizing fs with
  | nil =>
    rw [List.length_eq_zero_iff.1 h]
    cases more <;> simp only [drawnOf]
  | cons b bs ih =>
    cases fs with
    | nil => cases h
    | cons f fs =>
      simp only [List.cons_append, drawnOf, ih (by simpa using h)]

theorem verticals_append (w : Length) (h : LengthOrAuto) {bs : List BlockLevelBox} {fs : List Fragment}
    (more : List Fragment) (hl : fs.length = bs.length) : verticals w h bs (fs ++ more) = verticals w h bs fs := by
  induction bs generalizing fs with
  | nil =>
    rw [List.length_eq_zero_iff.1 hl]
    cases more <;> simp only [verticals]
  | cons b bs ih =>
    cases fs with
    | nil => cases hl
    | cons f fs =>
      simp only [List.cons_append, verticals, ih (by simpa using hl)]

/-! ## Moving everything -/

theorem edgesAt_add (y d : Length) (g : BoxGeom) : edgesAt (y + d) g = ((edgesAt y g).1 + d, (edgesAt y g).2 + d) := by
  unfold edgesAt
  simp only [Prod.mk.injEq]
  constructor <;> ring

mutual

theorem drawnEdges_add (d : Length) : ∀ (y : Length) (b : BlockLevelBox) (f : Fragment),
    drawnEdges (y + d) b f = (drawnEdges y b f).map fun e => (e.1 + d, e.2 + d)
  | y, .sameFormattingContextBlock _ c, .box _ g _ fs => by
    simp only [drawnEdges, List.map_cons, edgesAt_add]
    rw [← drawnIn_add d _ c fs, add_right_comm]
  | y, .independent _ (.mk c _), .box _ g _ fs => by
    simp only [drawnEdges, List.map_cons, edgesAt_add]
    rw [← drawnIn_add d _ c fs, add_right_comm]
  | y, .outOfFlowAbsolutelyPositionedBox _ _, .box .. => by simp only [drawnEdges, List.map_nil]
  | y, .outOfFlowFloatBox _ _, .box .. => by simp only [drawnEdges, List.map_nil]
  | y, b, .anonymous .. => by
    rw [(vertical_other 0 .auto b (f := .anonymous ..) (fun _ _ _ _ => by simp)).2,
      (vertical_other 0 .auto b (f := .anonymous ..) (fun _ _ _ _ => by simp)).2]
    rfl
  | y, b, .text .. => by
    rw [(vertical_other 0 .auto b (f := .text ..) (fun _ _ _ _ => by simp)).2,
      (vertical_other 0 .auto b (f := .text ..) (fun _ _ _ _ => by simp)).2]
    rfl

theorem drawnIn_add (d : Length) : ∀ (y : Length) (c : BlockContainer) (fs : List Fragment),
    drawnIn (y + d) c fs = (drawnIn y c fs).map fun e => (e.1 + d, e.2 + d)
  | y, .blockLevelBoxes bs, fs => by
    simp only [drawnIn]
    exact drawnOf_add d y bs fs
  | y, .inlineFormattingContext .., fs => by simp only [drawnIn, List.map_nil]

theorem drawnOf_add (d : Length) : ∀ (y : Length) (bs : List BlockLevelBox) (fs : List Fragment),
    drawnOf (y + d) bs fs = (drawnOf y bs fs).map fun e => (e.1 + d, e.2 + d)
  | y, b :: bs, f :: fs => by
    simp only [drawnOf, List.map_append]
    rw [drawnEdges_add d y b f, drawnOf_add d y bs fs]
  | y, [], fs => by simp only [drawnOf, List.map_nil]
  | y, _ :: _, [] => by simp only [drawnOf, List.map_nil]

end

/-! ## Layout -/

/-- a layout of boxes that is as it should be -/
def BoxesOk (boxL : BoxLayout) : Prop :=
  ∀ (b : BlockLevelBox) (cb : ContainingBlock) (rank : Nat) (abs out : List AbsFragment) (floats : Bool) (f : Fragment),
    boxL b cb rank abs floats = .ok (f, out) → Ok cb.inlineSize cb.blockSize b f

theorem layoutEach_ok {boxL : BoxLayout} (hb : BoxesOk boxL) {cb : ContainingBlock} : ∀ {bs : List BlockLevelBox}
    {rank : Nat} {abs out : List AbsFragment} {fs : List Fragment}, layoutEach boxL cb rank bs abs = .ok (fs, out) →
    List.Forall₂ (Ok cb.inlineSize cb.blockSize) bs fs
  | [], _, _, _, _, e => by
    cases e
    exact .nil
  | b :: bs, _, _, _, _, e => by
    obtain ⟨⟨f, a⟩, e1, e⟩ := bind_eq_ok.1 e
    obtain ⟨⟨fs, a'⟩, e2, e⟩ := bind_eq_ok.1 e
    cases e
    exact .cons (hb _ _ _ _ _ _ _ e1) (layoutEach_ok hb e2)

theorem layoutAndPlaceEach_ok {boxL : BoxLayout} (hb : BoxesOk boxL) {cb : ContainingBlock} :
    ∀ {bs : List BlockLevelBox} {rank : Nat} {abs out : List AbsFragment} {fs' : List Fragment}
      {st st' : PlacementState}, layoutAndPlaceEach boxL cb rank bs abs st = .ok (fs', out, st') →
    ∃ fs, List.Forall₂ (Ok cb.inlineSize cb.blockSize) bs fs ∧ placeAll st fs = .ok (fs', st')
  | [], _, _, _, _, _, _, e => by
    cases e
    exact ⟨[], .nil, rfl⟩
  | b :: bs, _, _, _, _, _, _, e => by
    obtain ⟨⟨f, a⟩, e1, e⟩ := bind_eq_ok.1 e
    obtain ⟨⟨f', st1⟩, e2, e⟩ := bind_eq_ok.1 e
    obtain ⟨⟨fs', a', st2⟩, e3, e⟩ := bind_eq_ok.1 e
    cases e
    obtain ⟨fs, h1, h2⟩ := layoutAndPlaceEach_ok hb e3
    refine ⟨f :: fs, .cons (hb _ _ _ _ _ _ _ e1) h1, ?_⟩
    simp only [placeAll, e2, h2, bind, Except.bind, pure, Except.pure]

theorem children_ok {boxL : BoxLayout} (hb : BoxesOk boxL) {cb : ContainingBlock} {bs : List BlockLevelBox} {rank : Nat}
    {abs out : List AbsFragment} {floats coll : Bool} {fc : FlowChildren}
    (e : layoutBlockLevelChildren boxL bs cb rank abs floats coll = .ok (fc, out)) :
    fc.fragments.length = bs.length ∧
    ContentOk (itemsOf false (verticals cb.inlineSize cb.blockSize bs fc.fragments))
      (fun y => drawnOf y bs fc.fragments)
      (fun s p => edgesOf false s p (verticals cb.inlineSize cb.blockSize bs fc.fragments)) coll fc := by
  obtain ⟨⟨fs', a, st⟩, e1, e⟩ := bind_eq_ok.1 e
  obtain ⟨adj, -, e⟩ := bind_eq_ok.1 e
  cases e
  have : ∃ fs, List.Forall₂ (Ok cb.inlineSize cb.blockSize) bs fs ∧
      placeAll (PlacementState.start coll) fs = .ok (fs', st) := by
    cases floats with
    | true => exact layoutAndPlaceEach_ok hb e1
    | false =>
      obtain ⟨⟨fs, a1⟩, e2, e1⟩ := bind_eq_ok.1 e1
      obtain ⟨⟨fs1, st1⟩, e3, e1⟩ := bind_eq_ok.1 e1
      cases e1
      exact ⟨fs, layoutEach_ok hb e2, e3⟩
  obtain ⟨fs, h1, h2⟩ := this
  exact placed_ok h1 h2

theorem inPositioned_more {absL : AbsLayout} {absolute : List AbsFragment} {fs out : List Fragment} {size : Vec2 Length}
    {padding : Sides Length} {mode : Mode}
    (e : inPositionedContainingBlock absL absolute fs size padding mode = .ok out) : ∃ more, out = fs ++ more := by
  unfold inPositionedContainingBlock at e
  split at e
  · cases e
    exact ⟨[], by simp⟩
  · obtain ⟨cs, -, e⟩ := bind_eq_ok.1 e
    cases e
    exact ⟨_, rfl⟩

/-- `layoutInFlow` taken apart -/
theorem layoutInFlow_more {absL : AbsLayout} {cb : ContainingBlock} {abs : List AbsFragment}
    {style : Style} {kind : BlockLevelKind} {contents} {f : Fragment} {out : List AbsFragment}
    (h : layoutInFlow absL cb abs style kind contents = .ok (f, out)) :
    ∃ fc a o more x,
      contents ⟨widthIn cb.inlineSize style, heightIn cb.blockSize style, style.writingMode⟩ a
        (inFlowSizes cb style kind).startCollapses = .ok (fc, o) ∧
      f = .box style
        ⟨⟨⟨x, (inFlowSizes cb style kind).padding.blockStart + (inFlowSizes cb style kind).border.blockStart +
            (relativeShift style (widthIn cb.inlineSize style) ((heightIn cb.blockSize style).autoIs 0)).block⟩,
          ⟨widthIn cb.inlineSize style, (heightIn cb.blockSize style).autoIs
            (collapseWithChildren (inFlowSizes cb style kind) fc).2⟩⟩,
          (inFlowSizes cb style kind).padding, (inFlowSizes cb style kind).border,
          (inFlowSizes cb style kind).margin⟩
        (collapseWithChildren (inFlowSizes cb style kind) fc).1 (fc.fragments ++ more) := by
  unfold layoutInFlow at h
  simp only at h
  split at h
  · cases h
  · obtain ⟨⟨fc, o⟩, h0, h⟩ := bind_eq_ok.1 h
    obtain ⟨children, h1, h⟩ := bind_eq_ok.1 h
    have hm : ∃ more, children = fc.fragments ++ more := by
      split at h1
      · exact inPositioned_more h1
      · cases h1
        exact ⟨[], by simp⟩
    obtain ⟨more, rfl⟩ := hm
    injection h with h
    injection h with h1 h2
    subst h1
    rw [sizes_width, sizes_height] at h0
    refine ⟨fc, _, o, more, (inFlowSizes cb style kind).pb.inlineStart +
      (relativeAdjustement style (inFlowSizes cb style kind).inlineSize (inFlowSizes cb style kind).blockSize).inline +
      (inFlowSizes cb style kind).margin.inlineStart, h0, ?_⟩
    rw [C44_shift, sizes_width, sizes_height]
    rfl

/-- a block from its contents -/
theorem block_ok {cb : ContainingBlock} {b : BlockLevelBox} {style : Style} {kind : BlockLevelKind} {root : Bool}
    {x : Length} {fc : FlowChildren} {fs : List Fragment} {lines : Option Length} {kids : List VBox} {K : List Item}
    {drawn : Length → List (Length × Length)} {g : BoxGeom}
    (hg : g = ⟨⟨⟨x, (inFlowSizes cb style kind).padding.blockStart + (inFlowSizes cb style kind).border.blockStart +
            (relativeShift style (widthIn cb.inlineSize style) ((heightIn cb.blockSize style).autoIs 0)).block⟩,
          ⟨widthIn cb.inlineSize style, (heightIn cb.blockSize style).autoIs
            (collapseWithChildren (inFlowSizes cb style kind) fc).2⟩⟩,
          (inFlowSizes cb style kind).padding, (inFlowSizes cb style kind).border,
          (inFlowSizes cb style kind).margin⟩)
    (hk : kind = if root then .establishesAnIndependentFormattingContext else .sameFormattingContextBlock)
    (hv : vertical cb.inlineSize cb.blockSize b (.box style g (collapseWithChildren (inFlowSizes cb style kind) fc).1 fs) =
      blockIn cb.inlineSize cb.blockSize style root lines kids)
    (hd : ∀ y, drawnEdges y b (.box style g (collapseWithChildren (inFlowSizes cb style kind) fc).1 fs) =
      edgesAt y g :: drawn (y + g.contentRect.startCorner.block))
    (hm : ∀ y d, drawn (y + d) = (drawn y).map fun e => (e.1 + d, e.2 + d))
    (hK : given (heightIn cb.blockSize style) = none → K = contentItems lines kids)
    (hL : leading K = leading (contentItems lines kids))
    (hc : ContentOk K drawn (fun s p => edgesOf false s p kids) (inFlowSizes cb style kind).startCollapses fc) :
    BlockOk cb.inlineSize cb.blockSize b style g (collapseWithChildren (inFlowSizes cb style kind) fc).1 fs := by
  have hs : (inFlowSizes cb style kind).startCollapses = (!root && (spaceIn cb.inlineSize (style.val .paddingTop) +
      spaceIn cb.inlineSize (style.val .borderTopWidth)) == 0) := by
    rw [← sizes_above cb style kind]
    have : (inFlowSizes cb style kind).startCollapses = (kind == .sameFormattingContextBlock &&
      ((inFlowSizes cb style kind).padding.blockStart + (inFlowSizes cb style kind).border.blockStart) == 0) := rfl
    rw [this, hk]
    cases root <;> rfl
  have he : (inFlowSizes cb style kind).endCollapses = (!root && (spaceIn cb.inlineSize (style.val .paddingBottom) +
      spaceIn cb.inlineSize (style.val .borderBottomWidth)) == 0 && (given (heightIn cb.blockSize style)).isNone) := by
    rw [← sizes_below cb style kind, ← sizes_height cb style kind]
    have : (inFlowSizes cb style kind).endCollapses = (kind == .sameFormattingContextBlock &&
      ((inFlowSizes cb style kind).padding.blockEnd + (inFlowSizes cb style kind).border.blockEnd) == 0 &&
        (inFlowSizes cb style kind).blockSize == .auto) := rfl
    rw [this]
    have e1 : (kind == .sameFormattingContextBlock) = !root := by
      rw [hk]
      cases root <;> rfl
    have e2 : ((inFlowSizes cb style kind).blockSize == .auto) = (given (inFlowSizes cb style kind).blockSize).isNone := by
      cases (inFlowSizes cb style kind).blockSize <;> rfl
    rw [e1, e2]
  rw [hs] at hc
  have hf := fits_of_contents (dy := (relativeShift style (widthIn cb.inlineSize style)
    ((heightIn cb.blockSize style).autoIs 0)).block) (sizes_top cb style kind) (sizes_bottom cb style kind) hs he hK hL hc
  unfold BlockOk
  rw [hv]
  have ha : (given (heightIn cb.blockSize style)).getD (collapseWithChildren (inFlowSizes cb style kind) fc).2 =
      (heightIn cb.blockSize style).autoIs (collapseWithChildren (inFlowSizes cb style kind) fc).2 := by
    cases heightIn cb.blockSize style <;> rfl
  have hH : g.borderRect.size.block = spaceIn cb.inlineSize (style.val .paddingTop) +
      spaceIn cb.inlineSize (style.val .borderTopWidth) +
      (given (heightIn cb.blockSize style)).getD (collapseWithChildren (inFlowSizes cb style kind) fc).2 +
      (spaceIn cb.inlineSize (style.val .paddingBottom) + spaceIn cb.inlineSize (style.val .borderBottomWidth)) := by
    rw [borderRect_size, ← sizes_above cb style kind, ← sizes_below cb style kind, ha, hg]
  rw [hH]
  refine (congrArg (Fits _ _ _) (funext fun y => ?_)).mpr hf
  rw [hd, List.map_cons, ← hm]
  congr 1
  · unfold edgesAt
    rw [hH, borderRect_start, hg]
    simp only [Prod.mk.injEq]
    constructor <;> ring
  · congr 1
    rw [hg, ← sizes_above cb style kind]
    ring

theorem collapse_root {S : InFlowSizes} (h1 : S.startCollapses = false) (h2 : S.endCollapses = false) (fc : FlowChildren) :
    collapseWithChildren S { fc with
      blockSize := fc.blockSize + fc.margins.«end».solve
      margins := { fc.margins with collapsedThrough := false, «end» := .zero } } = collapseWithChildren S fc := by
  simp only [collapseWithChildren, h1, h2, Bool.false_and, Bool.false_eq_true, if_false, solve_zero, add_zero]

/-- a block with lines in it -/
theorem inline_ok {E : TextEnv} {st : Style} {ibs : List InlineLevelBox} {w : ContainingBlock} {rank : Nat}
    {abs out : List AbsFragment} {cb : ContainingBlock} {b : BlockLevelBox} {style : Style} {kind : BlockLevelKind}
    {root : Bool} {x : Length} {fc : FlowChildren} {fs : List Fragment} {g : BoxGeom}
    (hg : g = ⟨⟨⟨x, (inFlowSizes cb style kind).padding.blockStart + (inFlowSizes cb style kind).border.blockStart +
            (relativeShift style (widthIn cb.inlineSize style) ((heightIn cb.blockSize style).autoIs 0)).block⟩,
          ⟨widthIn cb.inlineSize style, (heightIn cb.blockSize style).autoIs
            (collapseWithChildren (inFlowSizes cb style kind) fc).2⟩⟩,
          (inFlowSizes cb style kind).padding, (inFlowSizes cb style kind).border,
          (inFlowSizes cb style kind).margin⟩)
    (hk : kind = if root then .establishesAnIndependentFormattingContext else .sameFormattingContextBlock)
    (hv : vertical cb.inlineSize cb.blockSize b (.box style g (collapseWithChildren (inFlowSizes cb style kind) fc).1 fs) =
      blockIn cb.inlineSize cb.blockSize style root (some g.contentRect.size.block) [])
    (hd : ∀ y, drawnEdges y b (.box style g (collapseWithChildren (inFlowSizes cb style kind) fc).1 fs) = [edgesAt y g])
    (e : ifcLayout E st ibs w rank abs = .ok (fc, out)) :
    BlockOk cb.inlineSize cb.blockSize b style g (collapseWithChildren (inFlowSizes cb style kind) fc).1 fs := by
  have hm : fc.margins = ⟨false, .zero, .zero⟩ := by
    obtain ⟨⟨s, a⟩, -, e⟩ := bind_eq_ok.1 e
    cases e
    rfl
  refine block_ok hg hk hv (drawn := fun _ => []) hd (fun _ _ => rfl) (K := [.gap fc.blockSize]) (fun hn => ?_) rfl ?_
  · have : heightIn cb.blockSize style = .auto := by
      cases h : heightIn cb.blockSize style with
      | auto => rfl
      | length l =>
        rw [h] at hn
        cases hn
    rw [hg, this]
    simp only [contentItems, LengthOrAuto.autoIs, collapseWithChildren, hm, Bool.and_false, Bool.false_eq_true, if_false,
      solve_zero, add_zero, ite_self]
  · simpa only [edgesOf] using lines_ok hm (inFlowSizes cb style kind).startCollapses

theorem boxesOk (E : TextEnv) : ∀ n, BoxesOk (boxLayout E n)
  | 0 => by
    intro b cb rank abs out floats f e
    cases e
  | n + 1 => by
    intro b cb rank abs out floats f e
    rw [boxLayout] at e
    cases b with
    | outOfFlowAbsolutelyPositionedBox style c =>
      cases e
      trivial
    | outOfFlowFloatBox style c =>
      cases e
      trivial
    | sameFormattingContextBlock style c =>
      simp only [boxLayoutWith] at e
      obtain ⟨fc, a, o, more, x, e1, rfl⟩ := layoutInFlow_more e
      cases c with
      | blockLevelBoxes bs =>
        obtain ⟨hl, hc⟩ := children_ok (boxesOk E n) e1
        refine block_ok (root := false) (lines := none)
          (kids := verticals (widthIn cb.inlineSize style) (heightIn cb.blockSize style) bs fc.fragments) rfl rfl ?_ (drawn := fun y => drawnOf y bs fc.fragments) (fun y => ?_)
          (fun y d => drawnOf_add d y bs fc.fragments) (fun _ => rfl) rfl hc
        · simp only [vertical, verticalIn, verticals_append _ _ more hl]
        · simp only [drawnEdges, drawnIn, drawnOf_append _ more hl]
      | inlineFormattingContext st ibs =>
        refine inline_ok (E := E) (root := false) rfl rfl (by simp only [vertical, verticalIn]) (fun y => ?_) e1
        simp only [drawnEdges, drawnIn]
    | independent style bfc =>
      cases bfc with
      | mk c fl =>
        simp only [boxLayoutWith] at e
        obtain ⟨fc', a, o, more, x, e1, rfl⟩ := layoutInFlow_more e
        obtain ⟨⟨fc, a'⟩, e2, e1⟩ := bind_eq_ok.1 e1
        cases e1
        rw [collapse_root rfl rfl]
        cases c with
        | blockLevelBoxes bs =>
          obtain ⟨hl, hc⟩ := children_ok (boxesOk E n) e2
          refine block_ok (root := true) (lines := none)
            (kids := verticals (widthIn cb.inlineSize style) (heightIn cb.blockSize style) bs fc.fragments) rfl rfl ?_ (drawn := fun y => drawnOf y bs fc.fragments) (fun y => ?_)
            (fun y d => drawnOf_add d y bs fc.fragments) (fun _ => rfl) rfl hc
          · simp only [vertical, verticalIn, verticals_append _ _ more hl]
          · simp only [drawnEdges, drawnIn, drawnOf_append _ more hl]
        | inlineFormattingContext st ibs =>
          refine inline_ok (E := E) (root := true) rfl rfl (by simp only [vertical, verticalIn]) (fun y => ?_) e2
          simp only [drawnEdges, drawnIn]

end Vertical

/-! ## C78 -/

/-- C78 as stated: the edges are where CSS 2.1 puts them. -/
def C78_full : Prop :=
  ∀ (E : TextEnv) (bs : List BlockLevelBox) (floats : Bool) (viewport : PVec2 Length) (fs : List Fragment),
    rootLayout E (.mk (.blockLevelBoxes bs) floats) viewport = .ok fs →
    drawnOf 0 bs fs = edgesOf true ⟨0, []⟩ none (verticals viewport.x (.length viewport.y) bs fs)

/-- C78 (part): on every page, the upper and lower edges of all blocks in the flow are where the rules for
collapsing margins put them, except that a given height always keeps margins apart. -/
theorem C78_positions_partial (E : TextEnv) (bs : List BlockLevelBox) (floats : Bool) (viewport : PVec2 Length)
    (fs : List Fragment) (h : rootLayout E (.mk (.blockLevelBoxes bs) floats) viewport = .ok fs) :
    drawnOf 0 bs fs = edgesOf false ⟨0, []⟩ none (verticals viewport.x (.length viewport.y) bs fs) := by
  obtain ⟨⟨fc, abs⟩, e1, h⟩ := bind_eq_ok.1 h
  obtain ⟨more, -, h⟩ := bind_eq_ok.1 h
  cases h
  obtain ⟨⟨fc', a⟩, e2, e1⟩ := bind_eq_ok.1 e1
  cases e1
  obtain ⟨hl, hc⟩ := children_ok (boxesOk E _) e2
  rw [drawnOf_append _ more hl, verticals_append _ _ more hl]
  exact ((hc.plain rfl).2 ⟨0, []⟩ rfl).1

namespace Vertical

mutual

theorem items_css : ∀ (v : VBox), v.noZero → v.items true = v.items false
  | .out, _ => rfl
  | .block mt mb pt pb dy height root lines kids, h => by
    simp only [VBox.noZero] at h
    have hk := itemsOf_css kids h.2
    simp only [VBox.items, hk]
    cases height with
    | none => rfl
    | some x =>
      have hx : (x == 0) = false := by
        simpa using h.1
      simp [hx]

theorem itemsOf_css : ∀ (vs : List VBox), noZeroIn vs → itemsOf true vs = itemsOf false vs
  | [], _ => rfl
  | v :: vs, h => by
    simp only [noZeroIn] at h
    simp only [itemsOf, items_css v h.1, itemsOf_css vs h.2]

end

mutual

theorem edges_css : ∀ (v : VBox), v.noZero → ∀ s y, v.edges true s y = v.edges false s y
  | .out, _, s, y => rfl
  | .block mt mb pt pb dy height root lines kids, h, s, y => by
    have hi := items_css _ h
    have ht : VBox.through true (.block mt mb pt pb dy height root lines kids) =
        VBox.through false (.block mt mb pt pb dy height root lines kids) := by
      unfold VBox.through
      rw [hi]
    simp only [VBox.noZero] at h
    simp only [VBox.edges, hi, ht, edgesOf_css kids h.2]

theorem edgesOf_css : ∀ (vs : List VBox), noZeroIn vs → ∀ s p, edgesOf true s p vs = edgesOf false s p vs
  | [], _, s, p => by simp only [edgesOf]
  | v :: vs, h, s, p => by
    simp only [noZeroIn] at h
    have hi := items_css v h.1
    have ht : v.through true = v.through false := by
      unfold VBox.through
      rw [hi]
    have htop : v.top true s = v.top false s := by
      unfold VBox.top
      rw [hi]
    simp only [edgesOf, hi, ht, htop, edges_css v h.1, edgesOf_css vs h.2]

end

end Vertical

/-- C78 (part): if no block has a given height of 0, the edges are where CSS 2.1 puts them. -/
theorem C78_css_partial (E : TextEnv) (bs : List BlockLevelBox) (floats : Bool) (viewport : PVec2 Length)
    (fs : List Fragment) (h : rootLayout E (.mk (.blockLevelBoxes bs) floats) viewport = .ok fs)
    (h0 : noZeroIn (verticals viewport.x (.length viewport.y) bs fs)) :
    drawnOf 0 bs fs = edgesOf true ⟨0, []⟩ none (verticals viewport.x (.length viewport.y) bs fs) := by
  rw [edgesOf_css _ h0]
  exact C78_positions_partial E bs floats viewport fs h

/-- the edges of the blocks on a page, and those of `Vertical.edgesOf` -/
def pageEdges (css : Bool) (bs : List BlockLevelBox) : Option (List (Length × Length) × List (Length × Length)) :=
  match rootLayout blockEnv (.mk (.blockLevelBoxes bs) false) ⟨100, 50⟩ with
  | .ok fs => some (drawnOf 0 bs fs, edgesOf css ⟨0, []⟩ none (verticals 100 (.length 50) bs fs))
  | _ => none

/-- an empty block of height 0 with margins of 10 above and below, then one of height 10 -/
def zeroBlocks : List BlockLevelBox :=
  [emptyBlock (((plainStyle.set .height (.length 0)).set .marginTop (.length 10)).set .marginBottom (.length 10)),
    blockOf 0 0]

/-- C78 is false: the margins of an empty block with `height: 0` do not adjoin. -/
theorem C78_full_false : ¬ C78_full := by
  intro h
  have e : pageEdges true zeroBlocks = some ([(10, 10), (20, 30)], [(10, 10), (10, 20)]) := by decide +kernel
  unfold pageEdges at e
  split at e
  · rename_i fs hfs
    rw [h _ _ _ _ _ hfs] at e
    injection e with e
    injection e with e1 e2
    rw [e1] at e2
    revert e2
    decide +kernel
  · cases e

/-- margins of a block and of the blocks in it adjoin, also those of an empty block; one below a border does
not -/
example : pageEdges true [.sameFormattingContextBlock (plainStyle.set .marginTop (.length 3)) (.blockLevelBoxes [
      emptyBlock ((plainStyle.set .marginTop (.length 4)).set .marginBottom (.length (-2))),
      blockOf 7 5]), blockOf 2 1,
    .sameFormattingContextBlock (plainStyle.set .borderTopWidth (.length 1)) (.blockLevelBoxes [blockOf 6 8])] =
    some ([(5, 15), (5, 5), (5, 15), (20, 30), (31, 48), (38, 48)],
      [(5, 15), (5, 5), (5, 15), (20, 30), (31, 48), (38, 48)]) := by decide +kernel

/-- lines of text keep margins apart; a shifted block does not move others; percentages of the height refer
to the block around -/
example : pageEdges true [.sameFormattingContextBlock ((plainStyle.set .marginBottom (.length 5)).set .height (.length 40))
      (.blockLevelBoxes [.sameFormattingContextBlock ((plainStyle.set .marginTop (.length 4)).set .marginBottom (.length 6))
        (.inlineFormattingContext plainStyle [.textRun plainStyle "ab".toList ⟨16, 12, 4, 4, GCtx.new⟩]),
      .outOfFlowFloatBox plainStyle (.mk (.blockLevelBoxes []) false),
      emptyBlock (((plainStyle.set .height (.percentage (1/4))).set .position .relative).set .top (.length 2))]),
    blockOf (-3) 0] =
    some ([(4, 44), (4, 116 / 5), (156 / 5, 206 / 5), (46, 56)], [(4, 44), (4, 116 / 5), (156 / 5, 206 / 5), (46, 56)]) := by decide +kernel

end Sinab
