import Verif.Lemmas.BlockLayout
import Mathlib.Tactic.FieldSimp

/-! Properties of block layout: C39-C45. -/

namespace Sinab

/-! ## C40: margin collapsing -/

/-- margins combined in some order and grouping -/
inductive MarginTree where
  | one (m : Length)
  | two (a b : MarginTree)

/-- the margins of a grouping, from left to right -/
def MarginTree.margins : MarginTree → List Length
  | .one m => [m]
  | .two a b => a.margins ++ b.margins

/-- combines the margins as the layout code does -/
def MarginTree.collapse : MarginTree → CollapsedMargin
  | .one m => .new m
  | .two a b => a.collapse.adjoin b.collapse

theorem MarginTree.collapse_is (t : MarginTree) : t.collapse.Is t.margins := by
  induction t with
  | one m => exact CollapsedMargin.is_new m
  | two a b iha ihb => exact iha.adjoin ihb

theorem foldr_max_spec (l : List ℚ) : l.foldr max 0 ∈ 0 :: l ∧ ∀ x ∈ 0 :: l, x ≤ l.foldr max 0 := by
  induction l with
  | nil => simp
  | cons a l ih =>
    simp only [List.foldr_cons, List.mem_cons, forall_eq_or_imp] at ih ⊢
    refine ⟨?_, le_max_of_le_right ih.2.1, le_max_left _ _, fun x hx => le_max_of_le_right (ih.2.2 x hx)⟩
    rcases max_choice a (l.foldr max 0) with h | h
    · rw [h]; simp
    · rw [h]; rcases ih.1 with h | h
      · exact .inl h
      · exact .inr (.inr h)

theorem foldr_min_spec (l : List ℚ) : l.foldr min 0 ∈ 0 :: l ∧ ∀ x ∈ 0 :: l, l.foldr min 0 ≤ x := by
  induction l with
  | nil => simp
  | cons a l ih =>
    simp only [List.foldr_cons, List.mem_cons, forall_eq_or_imp] at ih ⊢
    refine ⟨?_, min_le_of_right_le ih.2.1, min_le_left _ _, fun x hx => min_le_of_right_le (ih.2.2 x hx)⟩
    rcases min_choice a (l.foldr min 0) with h | h
    · rw [h]; simp
    · rw [h]; rcases ih.1 with h | h
      · exact .inl h
      · exact .inr (.inr h)

/-- C40: however margins are grouped, the combined size is the largest positive margin (or
0) plus the most negative one (or 0). -/
theorem C40_largest_plus_most_negative (t : MarginTree) :
    ∃ p n, p ∈ 0 :: t.margins ∧ (∀ x ∈ 0 :: t.margins, x ≤ p) ∧
      n ∈ 0 :: t.margins ∧ (∀ x ∈ 0 :: t.margins, n ≤ x) ∧ t.collapse.solve = p + n :=
  ⟨_, _, (foldr_max_spec _).1, (foldr_max_spec _).2, (foldr_min_spec _).1, (foldr_min_spec _).2,
    t.collapse_is.solve⟩

/-- C40: order and grouping are irrelevant: two groupings of the same margins (in any order)
give the same collapsed margin. -/
theorem C40_order_irrelevant (t u : MarginTree) (h : t.margins.Perm u.margins) :
    t.collapse = u.collapse := by
  have h1 := t.collapse_is
  have h2 := u.collapse_is
  have e1 : t.margins.foldr max 0 = u.margins.foldr max 0 := h.foldr_eq 0
  have e2 : t.margins.foldr min 0 = u.margins.foldr min 0 := h.foldr_eq 0
  have hm : ∀ a b : CollapsedMargin, a.maxPositive = b.maxPositive → a.minNegative = b.minNegative →
      a = b := by
    rintro ⟨a, b⟩ ⟨c, d⟩ rfl rfl; rfl
  exact hm _ _ (by rw [h1.1, h2.1, e1]) (by rw [h1.2, h2.2, e2])

example : (MarginTree.two (.one 3) (.two (.one (-2)) (.one 5))).collapse.solve = 3 := by
  decide +kernel

example : (MarginTree.two (.one 3) (.two (.one (-2)) (.one 5))).collapse =
    (MarginTree.two (.two (.one 5) (.one 3)) (.one (-2))).collapse := by
  decide +kernel

/-! ## C39: block widths -/

/-- `layoutInFlow` taken apart -/
theorem layoutInFlow_eq_ok {absL : AbsLayout} {cb : ContainingBlock} {abs : List AbsFragment}
    {style : Style} {kind : BlockLevelKind} {contents} {f : Fragment} {out : List AbsFragment}
    (h : layoutInFlow absL cb abs style kind contents = .ok (f, out)) :
    ∃ fc o children,
      contents ⟨(inFlowSizes cb style kind).inlineSize, (inFlowSizes cb style kind).blockSize,
        style.writingMode⟩ (if Position.isRelativelyPositioned (style.val .position) then [] else abs)
        (inFlowSizes cb style kind).startCollapses = .ok (fc, o) ∧
      f = .box style
        ⟨⟨⟨(inFlowSizes cb style kind).pb.inlineStart +
            (relativeAdjustement style (inFlowSizes cb style kind).inlineSize
              (inFlowSizes cb style kind).blockSize).inline +
            (inFlowSizes cb style kind).margin.inlineStart,
          (inFlowSizes cb style kind).pb.blockStart +
            (relativeAdjustement style (inFlowSizes cb style kind).inlineSize
              (inFlowSizes cb style kind).blockSize).block⟩,
          ⟨(inFlowSizes cb style kind).inlineSize, (inFlowSizes cb style kind).blockSize.autoIs
            (collapseWithChildren (inFlowSizes cb style kind) fc).2⟩⟩,
          (inFlowSizes cb style kind).padding, (inFlowSizes cb style kind).border,
          (inFlowSizes cb style kind).margin⟩
        (collapseWithChildren (inFlowSizes cb style kind) fc).1 children := by
  unfold layoutInFlow at h
  simp only at h
  split at h
  · cases h
  · obtain ⟨⟨fc, o⟩, h0, h⟩ := bind_eq_ok.1 h
    obtain ⟨children, _, h⟩ := bind_eq_ok.1 h
    injection h with h
    injection h with h1 h2
    subst h1
    exact ⟨fc, o, children, h0, rfl⟩

/-- an in-flow block-level box with the given style -/
inductive InFlowBox (style : Style) : BlockLevelBox → Prop
  | same (contents : BlockContainer) : InFlowBox style (.sameFormattingContextBlock style contents)
  | independent (contents : Bfc) : InFlowBox style (.independent style contents)

/-- margins, borders, padding and width of a laid out box, left to right -/
def BoxGeom.outerWidth (g : BoxGeom) : Length :=
  g.margin.inlineStart + g.border.inlineStart + g.padding.inlineStart + g.contentRect.size.inline +
    g.padding.inlineEnd + g.border.inlineEnd + g.margin.inlineEnd

theorem inFlow_sizes {E : TextEnv} {n : Nat} {style : Style} {b : BlockLevelBox} {cb : ContainingBlock}
    {rank : Nat} {abs out : List AbsFragment} {fl : Bool} {f : Fragment} (hb : InFlowBox style b)
    (h : boxLayout E n b cb rank abs fl = .ok (f, out)) :
    ∃ kind g m children, f = .box style g m children ∧
      g.padding = (inFlowSizes cb style kind).padding ∧ g.border = (inFlowSizes cb style kind).border ∧
      g.margin = (inFlowSizes cb style kind).margin ∧
      g.contentRect.size.inline = (inFlowSizes cb style kind).inlineSize := by
  cases n with
  | zero => cases h
  | succ n =>
    rw [boxLayout] at h
    cases hb with
    | same c =>
      simp only [boxLayoutWith] at h
      obtain ⟨fc, o, children, _, rfl⟩ := layoutInFlow_eq_ok h
      exact ⟨.sameFormattingContextBlock, _, _, _, rfl, rfl, rfl, rfl, rfl⟩
    | independent c =>
      simp only [boxLayoutWith] at h
      obtain ⟨fc, o, children, _, rfl⟩ := layoutInFlow_eq_ok h
      exact ⟨.establishesAnIndependentFormattingContext, _, _, _, rfl, rfl, rfl, rfl, rfl⟩

/-- C39 as stated: the width equation holds for every in-flow block. -/
def C39_full : Prop :=
  ∀ (E : TextEnv) (n : Nat) (style : Style) (b : BlockLevelBox) (cb : ContainingBlock) (rank : Nat)
    (abs out : List AbsFragment) (fl : Bool) (f : Fragment), InFlowBox style b →
    boxLayout E n b cb rank abs fl = .ok (f, out) →
    ∃ g m children, f = .box style g m children ∧ g.outerWidth = cb.inlineSize

/-- C39 (part): if `width` is `auto`, the equation holds and `auto` margins are 0. -/
theorem C39_width_auto_partial (E : TextEnv) (n : Nat) (style : Style) (b : BlockLevelBox)
    (cb : ContainingBlock) (rank : Nat) (abs out : List AbsFragment) (fl : Bool) (f : Fragment)
    (hb : InFlowBox style b) (h : boxLayout E n b cb rank abs fl = .ok (f, out))
    (hw : style.val .width = .auto) :
    ∃ g m children, f = .box style g m children ∧ g.outerWidth = cb.inlineSize ∧
      (style.val .marginLeft = .auto → g.margin.inlineStart = 0) ∧
      (style.val .marginRight = .auto → g.margin.inlineEnd = 0) := by
  obtain ⟨kind, g, m, ch, rfl, h1, h2, h3, h4⟩ := inFlow_sizes hb h
  have hw' : style.boxSize.inline = .auto := hw
  refine ⟨g, m, ch, rfl, ?_, ?_, ?_⟩
  · unfold BoxGeom.outerWidth
    rw [h1, h2, h3, h4]
    simp only [inFlowSizes, hw', LengthOrPercentageOrAuto.percentageRelativeTo, LengthOrAuto.autoIs,
      Sides.inlineSum]
    show _ = _
    generalize (Sides.percentagesRelativeTo style.padding cb.inlineSize) = p
    generalize (Sides.percentagesRelativeTo style.borderWidth cb.inlineSize) = q
    have e1 : (p + q).inlineStart = p.inlineStart + q.inlineStart := rfl
    have e2 : (p + q).inlineEnd = p.inlineEnd + q.inlineEnd := rfl
    rw [e1, e2]
    ring
  · intro hm
    have hm' : style.margin.inlineStart = .auto := hm
    rw [h3]
    simp [inFlowSizes, hw', LengthOrPercentageOrAuto.percentageRelativeTo,
      Sides.percentagesOrAutoRelativeTo, Sides.autoIs, Sides.map, hm', LengthOrAuto.autoIs]
  · intro hm
    have hm' : style.margin.inlineEnd = .auto := hm
    rw [h3]
    simp [inFlowSizes, hw', LengthOrPercentageOrAuto.percentageRelativeTo,
      Sides.percentagesOrAutoRelativeTo, Sides.autoIs, Sides.map, hm', LengthOrAuto.autoIs]

/-- C39 (part): if `width` is given and both margins are `auto`, the equation holds and the
margins are equal. -/
theorem C39_both_auto_partial (E : TextEnv) (n : Nat) (style : Style) (b : BlockLevelBox)
    (cb : ContainingBlock) (rank : Nat) (abs out : List AbsFragment) (fl : Bool) (f : Fragment)
    (hb : InFlowBox style b) (h : boxLayout E n b cb rank abs fl = .ok (f, out))
    (hw : style.val .width ≠ .auto) (hl : style.val .marginLeft = .auto)
    (hr : style.val .marginRight = .auto) :
    ∃ g m children, f = .box style g m children ∧ g.outerWidth = cb.inlineSize ∧
      g.margin.inlineStart = g.margin.inlineEnd ∧
      .length g.contentRect.size.inline = (style.val .width).percentageRelativeTo cb.inlineSize := by
  obtain ⟨kind, g, m, ch, rfl, h1, h2, h3, h4⟩ := inFlow_sizes hb h
  obtain ⟨w, hw'⟩ : ∃ w, style.boxSize.inline.percentageRelativeTo cb.inlineSize = .length w := by
    have : style.boxSize.inline = style.val .width := rfl
    rw [this]
    cases hv : style.val .width with
    | length l => exact ⟨l, rfl⟩
    | percentage p => exact ⟨_, rfl⟩
    | auto => exact absurd hv hw
  have hl' : (style.margin.percentagesOrAutoRelativeTo cb.inlineSize).inlineStart = .auto := by
    have : style.margin.inlineStart = .auto := hl
    simp [Sides.percentagesOrAutoRelativeTo, Sides.map, this,
      LengthOrPercentageOrAuto.percentageRelativeTo]
  have hr' : (style.margin.percentagesOrAutoRelativeTo cb.inlineSize).inlineEnd = .auto := by
    have : style.margin.inlineEnd = .auto := hr
    simp [Sides.percentagesOrAutoRelativeTo, Sides.map, this,
      LengthOrPercentageOrAuto.percentageRelativeTo]
  refine ⟨g, m, ch, rfl, ?_, ?_, ?_⟩
  · unfold BoxGeom.outerWidth
    rw [h1, h2, h3, h4]
    simp only [inFlowSizes, hw', solveInlineMargins, hl', hr', Sides.autoIs, Sides.map,
      LengthOrAuto.autoIs, Sides.inlineSum]
    generalize (Sides.percentagesRelativeTo style.padding cb.inlineSize) = p
    generalize (Sides.percentagesRelativeTo style.borderWidth cb.inlineSize) = q
    have e1 : (p + q).inlineStart = p.inlineStart + q.inlineStart := rfl
    have e2 : (p + q).inlineEnd = p.inlineEnd + q.inlineEnd := rfl
    rw [e1, e2]
    ring
  · rw [h3]
    simp only [inFlowSizes, hw', solveInlineMargins, hl', hr', Sides.autoIs, Sides.map,
      LengthOrAuto.autoIs]
  · rw [h4]
    simp only [inFlowSizes, hw', LengthOrAuto.autoIs]
    exact hw'.symm

/-- C39 (part): if `width` is given and one margin `r` besides, the margin that is computed
(left if it is `auto`, else right) ignores the other one, so the sum is too large by it.  The
equation holds exactly if the other margin is 0. -/
theorem C39_given_margin_partial (E : TextEnv) (n : Nat) (style : Style) (b : BlockLevelBox)
    (cb : ContainingBlock) (rank : Nat) (abs out : List AbsFragment) (fl : Bool) (f : Fragment)
    (hb : InFlowBox style b) (h : boxLayout E n b cb rank abs fl = .ok (f, out))
    (hw : style.val .width ≠ .auto) (r : Length)
    (hr : (style.val .marginLeft).percentageRelativeTo cb.inlineSize = .length r ∨
      (style.val .marginLeft = .auto ∧
        (style.val .marginRight).percentageRelativeTo cb.inlineSize = .length r)) :
    ∃ g m children, f = .box style g m children ∧ g.outerWidth = cb.inlineSize + r := by
  obtain ⟨kind, g, m, ch, rfl, h1, h2, h3, h4⟩ := inFlow_sizes hb h
  obtain ⟨w, hw'⟩ : ∃ w, style.boxSize.inline.percentageRelativeTo cb.inlineSize = .length w := by
    have : style.boxSize.inline = style.val .width := rfl
    rw [this]
    cases hv : style.val .width with
    | length l => exact ⟨l, rfl⟩
    | percentage p => exact ⟨_, rfl⟩
    | auto => exact absurd hv hw
  refine ⟨g, m, ch, rfl, ?_⟩
  unfold BoxGeom.outerWidth
  rw [h1, h2, h3, h4]
  have hm : ∀ x, ((solveInlineMargins (style.margin.percentagesOrAutoRelativeTo cb.inlineSize)
      x).autoIs 0).inlineStart + ((solveInlineMargins
      (style.margin.percentagesOrAutoRelativeTo cb.inlineSize) x).autoIs 0).inlineEnd = x + r := by
    intro x
    have e1 : (style.margin.percentagesOrAutoRelativeTo cb.inlineSize).inlineStart =
        (style.val .marginLeft).percentageRelativeTo cb.inlineSize := rfl
    have e2 : (style.margin.percentagesOrAutoRelativeTo cb.inlineSize).inlineEnd =
        (style.val .marginRight).percentageRelativeTo cb.inlineSize := rfl
    rcases hr with hr | ⟨hl, hr⟩
    · simp only [solveInlineMargins, e1, hr, Sides.autoIs, Sides.map]
      cases (style.margin.percentagesOrAutoRelativeTo cb.inlineSize).inlineEnd <;>
        simp [LengthOrAuto.autoIs, add_comm]
    · have hl' : (style.val .marginLeft).percentageRelativeTo cb.inlineSize = .auto := by
        rw [hl]; rfl
      simp [solveInlineMargins, e1, e2, hl', hr, Sides.autoIs, Sides.map, LengthOrAuto.autoIs]
  simp only [inFlowSizes, hw', LengthOrAuto.autoIs, Sides.inlineSum]
  generalize (Sides.percentagesRelativeTo style.padding cb.inlineSize) = p
  generalize (Sides.percentagesRelativeTo style.borderWidth cb.inlineSize) = q
  have e1 : (p + q).inlineStart = p.inlineStart + q.inlineStart := rfl
  have e2 : (p + q).inlineEnd = p.inlineEnd + q.inlineEnd := rfl
  rw [e1, e2]
  have := hm (cb.inlineSize - w - (p.inlineStart + q.inlineStart + (p.inlineEnd + q.inlineEnd)))
  linarith

/-- environment for examples -/
def blockEnv : TextEnv := ⟨fun _ => ⟨16, 12, 4, 4, GCtx.new⟩, fun _ t => 10 * t.length⟩

/-- style for examples: initial values, no borders -/
def plainStyle : Style :=
  (((Style.initial.set .borderTopWidth (.length 0)).set .borderLeftWidth (.length 0)).set
    .borderBottomWidth (.length 0)).set .borderRightWidth (.length 0)

/-- containing block for examples -/
def blockCb : ContainingBlock := ⟨100, .length 50, (.horizontalTb, .ltr)⟩

/-- an empty block with the given style -/
def emptyBlock (st : Style) : BlockLevelBox := .sameFormattingContextBlock st (.blockLevelBoxes [])

/-- margins, content rectangle of the result of a layout -/
def geomOf (r : Except Panic (Fragment × List AbsFragment)) : Option (Sides Length × Rect Length) :=
  match r with
  | .ok (.box _ g _ _, _) => some (g.margin, g.contentRect)
  | _ => none

/-- C39 is false: `width: 50px; margin-left: 10px` in a containing block of width 100 gets a
right margin of 50 px. -/
theorem C39_full_false : ¬ C39_full := by
  intro h
  have hst : ∃ style : Style, style.val .width = .length 50 ∧ style.val .marginLeft = .length 10 :=
    ⟨(Style.initial.set .width (.length 50)).set .marginLeft (.length 10), by decide +kernel,
      by decide +kernel⟩
  obtain ⟨style, hw, hm⟩ := hst
  obtain ⟨f, new, h1, _, _⟩ := (layout_good blockEnv 1).1 (emptyBlock style) blockCb 0
    trivial (by simp [emptyBlock, BlockLevelBox.depth, BlockContainer.depth, blockDepth]) rfl
  have h2 := h1 [] false
  obtain ⟨g, m, ch, rfl, h3⟩ := h _ _ style _ _ _ _ _ _ _ (.same _) h2
  obtain ⟨g', m', ch', h4, h5⟩ := C39_given_margin_partial _ _ style _ _ _ _ _ _ _ (.same _) h2
    (by rw [hw]; simp) 10 (.inl (by rw [hm]; rfl))
  injection h4 with _ h4
  subst h4
  rw [h3] at h5
  simp [blockCb] at h5

/-- one margin `auto`, width given -/
example : geomOf (boxLayout blockEnv 1 (emptyBlock ((((plainStyle.set .width (.percentage (1/4))).set
    .marginLeft .auto).set .marginRight (.length 10)).set .paddingLeft (.length 5))) blockCb 0 [] false) =
    some (⟨70, 10, 0, 0⟩, ⟨⟨75, 0⟩, ⟨25, 0⟩⟩) := by decide +kernel

/-- both margins `auto`, width given -/
example : geomOf (boxLayout blockEnv 1 (emptyBlock ((((plainStyle.set .width (.percentage (1/4))).set
    .marginLeft .auto).set .marginRight .auto).set .paddingLeft (.length 5))) blockCb 0 [] false) =
    some (⟨35, 35, 0, 0⟩, ⟨⟨40, 0⟩, ⟨25, 0⟩⟩) := by decide +kernel

/-- width `auto` -/
example : geomOf (boxLayout blockEnv 1 (emptyBlock (((plainStyle.set .marginTop (.length 7)).set
    .marginRight (.length 10)).set .paddingLeft (.length 5))) blockCb 0 [] false) =
    some (⟨0, 10, 7, 0⟩, ⟨⟨5, 0⟩, ⟨85, 0⟩⟩) := by decide +kernel

/-! ## C41: stacking -/

/-- C41: layout of the children of a block container never aborts.  The children are laid
out one by one (`fs`) and moved down by `ds`, where the `ds` stack them: each starts at the
end of the last solid child before it plus the joint margin in between.  The content height
is the end of the last solid child; what remains of the margins at both ends is reported. -/
theorem C41_stacked (E : TextEnv) (n : Nat) (bs : List BlockLevelBox) (hs : blockSound bs)
    (hd : blockDepth bs ≤ n) (cb : ContainingBlock) (hcb : cb.standard) (rank : Nat)
    (abs : List AbsFragment) (floats collapsible : Bool) :
    ∃ fc abs' fs cs ds,
      layoutBlockLevelChildren (boxLayout E n) bs cb rank abs floats collapsible = .ok (fc, abs') ∧
      fs.length = bs.length ∧
      (∀ i b f, bs[i]? = some b → fs[i]? = some f →
        ∃ new, boxLayout E n b cb i [] floats = .ok (f, new)) ∧
      List.Forall₂ IsChild fs cs ∧ ds.length = bs.length ∧
      fc.fragments = List.zipWith Fragment.translateBlock ds fs ∧
      Stacked collapsible (cs.zip ds).reverse ∧
      fc.blockSize = lastEnd (cs.zip ds).reverse ∧
      fc.margins.collapsedThrough = (collapsible && !anySolid cs.reverse) ∧
      fc.margins.start.Is (if collapsible then headMargins cs.reverse else []) ∧
      fc.margins.«end».Is
        (if collapsible && !anySolid cs.reverse then [] else tailMargins cs.reverse) := by
  obtain ⟨fc, new, h1, _, ⟨h3⟩⟩ := layoutBlockLevelChildren_good (layout_good E n).1 hcb bs hs hd rank
    collapsible
  refine ⟨fc, _, h3.fs, h3.cs, h3.ds, h1 abs floats, h3.laidOut.length, ?_, h3.isChild, ?_, ?_,
    h3.stacked, h3.blockSize, h3.through, h3.start, h3.«end»⟩
  · intro i b f hb hf
    simpa using h3.laidOut.get floats i b f hb hf
  · rw [h3.length, h3.laidOut.length]
  · rw [h3.fragments, moveAll, List.zipWith_comm]

/-- offsets of the children and the height in a laid out box -/
def blockTops (r : Except Panic (Fragment × List AbsFragment)) : Option (List Length × Length) :=
  match r with
  | .ok (.box _ g _ cs, _) => some (cs.map fun
      | .box _ g _ _ => g.borderRect.startCorner.block
      | .anonymous r _ _ => r.startCorner.block
      | .text _ r _ => r.startCorner.block, g.contentRect.size.block)
  | _ => none

/-- a block of height 10 with the given margins at top and bottom -/
def blockOf (top bottom : Length) : BlockLevelBox :=
  emptyBlock (((plainStyle.set .height (.length 10)).set .marginTop (.length top)).set .marginBottom
    (.length bottom))

/-- margins of 5 and 8 collapse to 8; an empty block with margins 3 and -2 in between
collapses through; the parent (with a border) includes the last margin -/
example : blockTops (boxLayout blockEnv 3 (.sameFormattingContextBlock ((plainStyle.set .borderTopWidth
    (.length 1)).set .borderBottomWidth (.length 1)) (.blockLevelBoxes [blockOf 4 5,
      emptyBlock ((plainStyle.set .marginTop (.length 3)).set .marginBottom (.length (-2))),
      .outOfFlowFloatBox plainStyle (.mk (.blockLevelBoxes []) false), blockOf 8 6]))
    blockCb 0 [] false) = some ([4, 19, 14, 20], 36) := by decide +kernel

theorem foldr_max_nonneg (l : List ℚ) : 0 ≤ l.foldr max 0 :=
  (foldr_max_spec l).2 0 (by simp)

theorem jointMargin_nonneg {l : List ℚ} (h : ∀ x ∈ l, 0 ≤ x) : 0 ≤ jointMargin l := by
  have h1 := foldr_max_nonneg l
  have h2 : 0 ≤ l.foldr min 0 := by
    rcases List.mem_cons.1 (foldr_min_spec l).1 with h' | h'
    · exact h'.ge
    · exact h _ h'
  unfold jointMargin
  linarith

/-- a child with non-negative margins and height -/
def Child.nonneg : Child → Prop
  | none => True
  | some c => (∀ x ∈ c.top, 0 ≤ x) ∧ (∀ x ∈ c.bottom, 0 ≤ x) ∧ 0 ≤ c.height

theorem tailMargins_nonneg : ∀ (cs : List Child), (∀ c ∈ cs, c.nonneg) →
    ∀ x ∈ tailMargins cs, 0 ≤ x := by
  intro cs
  induction cs with
  | nil => intro _ x hx; simp [tailMargins] at hx
  | cons c cs ih =>
    intro h x hx
    have hc := h c (by simp)
    have ht := ih (fun d hd => h d (by simp [hd]))
    cases c with
    | none => exact ht x hx
    | some c =>
      simp only [tailMargins] at hx
      split at hx
      · simp only [List.mem_append] at hx
        rcases hx with hx | hx | hx
        · exact hc.2.1 x hx
        · exact hc.1 x hx
        · exact ht x hx
      · exact hc.2.1 x hx

theorem anySolid_of_mem {cs : List Child} {c : ChildBox} (h : some c ∈ cs) (hc : c.through = false) :
    anySolid cs = true := by
  induction cs with
  | nil => simp at h
  | cons d cs ih =>
    rcases List.mem_cons.1 h with rfl | h'
    · simp [anySolid, hc]
    · have := ih h'
      cases d <;> simp [anySolid, this]

theorem stacked_le_lastEnd (coll : Bool) : ∀ (P : List (Child × Length)), Stacked coll P →
    (∀ p ∈ P, p.1.nonneg) → ∀ c d, (some c, d) ∈ P → c.through = false → d + c.height ≤ lastEnd P := by
  intro P
  induction P with
  | nil => intro _ _ c d h; simp at h
  | cons p P ih =>
    intro hs hn c d hm hc
    obtain ⟨q, e⟩ := p
    obtain ⟨h1, h2⟩ := hs
    have ih' := ih h2 (fun p hp => hn p (by simp [hp]))
    rcases List.mem_cons.1 hm with heq | hm'
    · injection heq with h3 h4
      subst h3 h4
      simp [lastEnd, hc]
    · have hle := ih' c d hm' hc
      cases q with
      | none => exact hle
      | some q =>
        simp only [lastEnd]
        split
        · exact hle
        · have hany : anySolid (P.map (·.1)) = true :=
            anySolid_of_mem (List.mem_map.2 ⟨(some c, d), hm', rfl⟩) hc
          have hq := hn (some q, e) (by simp)
          simp only [childOffset, hany, Bool.not_true, Bool.and_false, Bool.false_eq_true, if_false] at h1
          have := jointMargin_nonneg (l := q.top ++ tailMargins (P.map (·.1))) (by
            intro x hx
            rcases List.mem_append.1 hx with hx | hx
            · exact hq.1 x hx
            · exact tailMargins_nonneg _ (fun c hc => by
                obtain ⟨p, hp, rfl⟩ := List.mem_map.1 hc
                exact hn p (by simp [hp])) x hx)
          have hh := hq.2.2
          rw [h1]
          linarith

theorem Stacked.tail {coll : Bool} : ∀ {P Q : List (Child × Length)}, Stacked coll (P ++ Q) →
    Stacked coll Q := by
  intro P
  induction P with
  | nil => intro Q h; exact h
  | cons p P ih => intro Q h; exact ih h.2

/-- C41: nothing overlaps: if margins and heights are not negative, a child that does not
collapse through ends before each later in-flow child begins.  (Children as in
`C41_stacked`.) -/
theorem C41_no_overlap (coll : Bool) (cs : List Child) (ds : List Length)
    (hs : Stacked coll (cs.zip ds).reverse) (hn : ∀ c ∈ cs, c.nonneg)
    (i j : Nat) (hij : i < j) (a b : ChildBox) (x y : Length) (ha : cs[i]? = some (some a))
    (hb : cs[j]? = some (some b)) (hx : ds[i]? = some x) (hy : ds[j]? = some y)
    (hsol : a.through = false) : x + a.height ≤ y := by
  have hz : ∀ (k : Nat) c z, cs[k]? = some c → ds[k]? = some z → (cs.zip ds)[k]? = some (c, z) := by
    intro k c z h1 h2
    rw [List.getElem?_zip_eq_some]
    exact ⟨h1, h2⟩
  have hzi := hz i _ _ ha hx
  have hzj := hz j _ _ hb hy
  have hjlt : j < (cs.zip ds).length := (List.getElem?_eq_some_iff.1 hzj).1
  have hsplit : cs.zip ds = (cs.zip ds).take j ++ (some b, y) :: (cs.zip ds).drop (j + 1) := by
    have hg : (cs.zip ds)[j] = (some b, y) := (List.getElem?_eq_some_iff.1 hzj).2
    conv_lhs => rw [← List.take_append_drop j (cs.zip ds)]
    rw [List.drop_eq_getElem_cons hjlt, hg]
  rw [hsplit, List.reverse_append, List.reverse_cons, List.append_assoc] at hs
  have h1 : Stacked coll ((some b, y) :: ((cs.zip ds).take j).reverse) := hs.tail
  obtain ⟨h2, h3⟩ := h1
  have hmem : (some a, x) ∈ ((cs.zip ds).take j).reverse := by
    rw [List.mem_reverse]
    have : ((cs.zip ds).take j)[i]? = some (some a, x) := by
      rw [List.getElem?_take_of_lt hij]; exact hzi
    exact List.mem_of_getElem? this
  have hnn : ∀ p ∈ ((cs.zip ds).take j).reverse, p.1.nonneg := by
    intro p hp
    rw [List.mem_reverse] at hp
    exact hn _ (List.of_mem_zip (List.mem_of_mem_take hp)).1
  have h4 := stacked_le_lastEnd coll _ h3 hnn a x hmem hsol
  have hany : anySolid (((cs.zip ds).take j).reverse.map (·.1)) = true :=
    anySolid_of_mem (List.mem_map.2 ⟨(some a, x), hmem, rfl⟩) hsol
  simp only [childOffset, hany, Bool.not_true, Bool.and_false, Bool.false_eq_true, if_false] at h2
  have hbn : Child.nonneg (some b) := hn _ (List.mem_of_getElem? hb)
  have := jointMargin_nonneg (l := b.top ++ tailMargins (((cs.zip ds).take j).reverse.map (·.1))) (by
    intro z hz
    rcases List.mem_append.1 hz with hz | hz
    · exact hbn.1 z hz
    · exact tailMargins_nonneg _ (fun c hc => by
        obtain ⟨p, hp, rfl⟩ := List.mem_map.1 hc
        exact hnn p hp) z hz)
  rw [h2]
  linarith

/-- how the children of a block container are laid out: `fs` are the children laid out alone,
`ds` the distances by which they are moved down -/
structure StackedChildren (E : TextEnv) (n : Nat) (bs : List BlockLevelBox) (cb : ContainingBlock)
    (coll : Bool) (children : List Fragment) (cs : List Child) (ds : List Length) : Prop where
  alone : ∃ fs : List Fragment, fs.length = bs.length ∧
    (∀ i b f, bs[i]? = some b → fs[i]? = some f → ∃ new, boxLayout E n b cb i [] false = .ok (f, new)) ∧
    List.Forall₂ IsChild fs cs ∧ children = List.zipWith Fragment.translateBlock ds fs
  length : ds.length = bs.length
  stacked : Stacked coll (cs.zip ds).reverse

theorem ChildrenLaidOut.stackedChildren {E : TextEnv} {n : Nat} {bs cb rank coll fc new}
    (h3 : ChildrenLaidOut (boxLayout E n) bs cb rank coll fc new) :
    StackedChildren E n bs cb coll fc.fragments h3.cs h3.ds := by
  refine ⟨⟨h3.fs, h3.laidOut.length, ?_, h3.isChild, ?_⟩, ?_, h3.stacked⟩
  · intro i b f hb hf
    simpa using h3.laidOut.get false i b f hb hf
  · rw [h3.fragments, moveAll, List.zipWith_comm]
  · rw [h3.length, h3.laidOut.length]

theorem collapse_spec (s : InFlowSizes) (fc : FlowChildren) (solid : Bool) (head tail : List Length)
    (hthrough : fc.margins.collapsedThrough = (s.startCollapses && !solid))
    (hst : fc.margins.start.Is (if s.startCollapses then head else []))
    (hen : fc.margins.«end».Is (if s.startCollapses && !solid then [] else tail)) :
    (collapseWithChildren s fc).2 = fc.blockSize + (if s.endCollapses then 0 else
      jointMargin (if s.startCollapses && !solid then [] else tail)) ∧
    (collapseWithChildren s fc).1.start.Is (s.margin.blockStart :: if s.startCollapses then head else []) ∧
    (collapseWithChildren s fc).1.«end».Is (s.margin.blockEnd ::
      if s.endCollapses then (if s.startCollapses && !solid then [] else tail) else []) ∧
    (collapseWithChildren s fc).1.collapsedThrough = (s.startCollapses && s.endCollapses && !solid) := by
  obtain ⟨p, b, mar, is, bsz, sc, ec⟩ := s
  obtain ⟨fr, size, ⟨th, st, en⟩⟩ := fc
  simp only at hthrough hst hen
  subst hthrough
  have hs := (CollapsedMargin.is_new mar.blockStart).adjoin hst
  have he := (CollapsedMargin.is_new mar.blockEnd).adjoin hen
  have h0 := (CollapsedMargin.is_new mar.blockEnd).adjoin CollapsedMargin.is_zero
  have hz := CollapsedMargin.is_zero.solve
  have hn := CollapsedMargin.is_new mar.blockStart
  have hm := CollapsedMargin.is_new mar.blockEnd
  have hss := hs.adjoin hen
  have hes := hen.solve
  cases sc <;> cases ec <;> cases solid <;>
    simp_all [collapseWithChildren, CollapsedBlockMargins.fromMargin]

/-- C41: the height of a block that contains blocks, and the margins that it shows to the
outside.  A given height is used as is.  Otherwise the height reaches to the end of the last
solid child; the margin after it is included unless it adjoins the bottom margin of the block,
or, if no child is solid, its top margin. -/
theorem C41_block (E : TextEnv) (n : Nat) (style : Style) (bs : List BlockLevelBox)
    (hs : blockSound bs) (hd : blockDepth bs ≤ n) (cb : ContainingBlock) (hcb : cb.standard)
    (rank : Nat) (abs : List AbsFragment) (floats : Bool) :
    ∃ g m children extra out cs ds,
      boxLayout E (n + 1) (.sameFormattingContextBlock style (.blockLevelBoxes bs)) cb rank abs floats =
        .ok (.box style g m (children ++ extra), out) ∧
      (style.val .position ≠ .relative → extra = []) ∧
      let coll := decide (g.padding.blockStart + g.border.blockStart = 0)
      let collEnd := decide (g.padding.blockEnd + g.border.blockEnd = 0) &&
        decide (usedHeight style cb = .auto)
      let after := if coll && !anySolid cs.reverse then [] else tailMargins cs.reverse
      StackedChildren E n bs ⟨g.contentRect.size.inline, usedHeight style cb, (.horizontalTb, .ltr)⟩
        coll children cs ds ∧
      g.contentRect.size.block = (usedHeight style cb).autoIs
        (lastEnd (cs.zip ds).reverse + if collEnd then 0 else jointMargin after) ∧
      m.start.Is (g.margin.blockStart :: if coll then headMargins cs.reverse else []) ∧
      m.«end».Is (g.margin.blockEnd :: if collEnd then after else []) ∧
      m.collapsedThrough = (coll && collEnd && !anySolid cs.reverse) := by
  obtain ⟨fc, new, h1, h2, ⟨h3⟩⟩ := layoutBlockLevelChildren_good (layout_good E n).1
    (cb := ⟨(inFlowSizes cb style .sameFormattingContextBlock).inlineSize,
      (inFlowSizes cb style .sameFormattingContextBlock).blockSize, (.horizontalTb, .ltr)⟩) rfl
    bs hs hd rank (inFlowSizes cb style .sameFormattingContextBlock).startCollapses
  obtain ⟨rect, extra, out, h4, h5, h6, h7, h8, h9⟩ := layoutInFlow_good (layout_good E n).2 hcb style
    .sameFormattingContextBlock rank
    (fun cb nested collapsible => containerLayout E (boxLayout E n) (.blockLevelBoxes bs) cb rank nested
      floats collapsible) (fc := fc) (new := new) (fun abs => h1 abs floats) h2
  have hheight : usedHeight style cb = (inFlowSizes cb style .sameFormattingContextBlock).blockSize := by
    unfold usedHeight inFlowSizes
    simp only
    have : style.boxSize.block = style.val .height := rfl
    rw [this]
    cases style.val .height <;> cases cb.blockSize <;> rfl
  have hstart : decide ((inFlowSizes cb style .sameFormattingContextBlock).padding.blockStart +
      (inFlowSizes cb style .sameFormattingContextBlock).border.blockStart = 0) =
      (inFlowSizes cb style .sameFormattingContextBlock).startCollapses := by
    show _ = (true && _)
    rw [Bool.true_and]
    exact (beq_eq_decide _ _).symm
  have hend : (decide ((inFlowSizes cb style .sameFormattingContextBlock).padding.blockEnd +
      (inFlowSizes cb style .sameFormattingContextBlock).border.blockEnd = 0) &&
      decide ((inFlowSizes cb style .sameFormattingContextBlock).blockSize = .auto)) =
      (inFlowSizes cb style .sameFormattingContextBlock).endCollapses := by
    show _ = (true && _ && _)
    rw [Bool.true_and]
    congr 1
  refine ⟨⟨rect, (inFlowSizes cb style .sameFormattingContextBlock).padding,
      (inFlowSizes cb style .sameFormattingContextBlock).border,
      (inFlowSizes cb style .sameFormattingContextBlock).margin⟩,
    (collapseWithChildren (inFlowSizes cb style .sameFormattingContextBlock) fc).1, fc.fragments, extra, _,
    h3.cs, h3.ds, h4 abs, ?_, ?_⟩
  · intro hp
    exact (h8 (by cases h : style.val .position <;> simp_all [Position.isRelativelyPositioned])).1
  · obtain ⟨e1, e2, e3, e4⟩ := collapse_spec (inFlowSizes cb style .sameFormattingContextBlock) fc
      (anySolid h3.cs.reverse) (headMargins h3.cs.reverse) (tailMargins h3.cs.reverse) h3.through
      h3.start h3.«end»
    simp only
    rw [hheight, hend, hstart]
    refine ⟨?_, ?_, e2, e3, e4⟩
    · show StackedChildren E n bs ⟨rect.size.inline, _, _⟩ _ _ _ _
      rw [h6]
      exact h3.stackedChildren
    · rw [h6, ← h3.blockSize]
      show LengthOrAuto.autoIs _ _ = LengthOrAuto.autoIs _ _
      congr 1

/-- C41: in a block that establishes a formatting context, the margins of the children stay
inside and those of the block are its own. -/
theorem C41_independent (E : TextEnv) (n : Nat) (style : Style) (bs : List BlockLevelBox) (flag : Bool)
    (hs : blockSound bs) (hd : blockDepth bs ≤ n) (cb : ContainingBlock) (hcb : cb.standard)
    (rank : Nat) (abs : List AbsFragment) (floats : Bool) :
    ∃ g m children extra out cs ds,
      boxLayout E (n + 1) (.independent style (.mk (.blockLevelBoxes bs) flag)) cb rank abs floats =
        .ok (.box style g m (children ++ extra), out) ∧
      (style.val .position ≠ .relative → extra = []) ∧
      StackedChildren E n bs ⟨g.contentRect.size.inline, usedHeight style cb, (.horizontalTb, .ltr)⟩
        false children cs ds ∧
      g.contentRect.size.block = (usedHeight style cb).autoIs
        (lastEnd (cs.zip ds).reverse + jointMargin (tailMargins cs.reverse)) ∧
      m.start.Is [g.margin.blockStart] ∧ m.«end».Is [g.margin.blockEnd] ∧ m.collapsedThrough = false := by
  obtain ⟨fc, new, h1, h2, ⟨h3⟩⟩ := layoutBlockLevelChildren_good (layout_good E n).1
    (cb := ⟨(inFlowSizes cb style .establishesAnIndependentFormattingContext).inlineSize,
      (inFlowSizes cb style .establishesAnIndependentFormattingContext).blockSize, (.horizontalTb, .ltr)⟩)
    rfl bs hs hd rank false
  obtain ⟨rect, extra, out, h4, h5, h6, h7, h8, h9⟩ := layoutInFlow_good (layout_good E n).2 hcb style
    .establishesAnIndependentFormattingContext rank
    (fun cb nested _ => bfcLayout E (boxLayout E n) (.mk (.blockLevelBoxes bs) flag) cb rank nested)
    (fc := ⟨fc.fragments, fc.blockSize + fc.margins.«end».solve, ⟨false, fc.margins.start, .zero⟩⟩)
    (new := new) (fun abs => by
      simp only [bfcLayout, Bfc.contents, Bfc.containsFloats, containerLayout, h1, bind, Except.bind,
        pure, Except.pure]) h2
  have hheight : usedHeight style cb =
      (inFlowSizes cb style .establishesAnIndependentFormattingContext).blockSize := by
    unfold usedHeight inFlowSizes
    simp only
    have : style.boxSize.block = style.val .height := rfl
    rw [this]
    cases style.val .height <;> cases cb.blockSize <;> rfl
  have hst : (inFlowSizes cb style .establishesAnIndependentFormattingContext).startCollapses = false := rfl
  have hen : (inFlowSizes cb style .establishesAnIndependentFormattingContext).endCollapses = false := rfl
  refine ⟨⟨rect, (inFlowSizes cb style .establishesAnIndependentFormattingContext).padding,
      (inFlowSizes cb style .establishesAnIndependentFormattingContext).border,
      (inFlowSizes cb style .establishesAnIndependentFormattingContext).margin⟩,
    (collapseWithChildren (inFlowSizes cb style .establishesAnIndependentFormattingContext)
      ⟨fc.fragments, fc.blockSize + fc.margins.«end».solve, ⟨false, fc.margins.start, .zero⟩⟩).1,
    fc.fragments, extra, _, h3.cs, h3.ds, h4 abs, ?_, ?_, ?_, ?_, ?_, ?_⟩
  · intro hp
    exact (h8 (by cases h : style.val .position <;> simp_all [Position.isRelativelyPositioned])).1
  · show StackedChildren E n bs ⟨rect.size.inline, usedHeight style cb, _⟩ _ _ _ _
    rw [h6, hheight]
    exact h3.stackedChildren
  · show rect.size.block = _
    rw [h6, hheight]
    show LengthOrAuto.autoIs _ _ = LengthOrAuto.autoIs _ _
    congr 1
    simp only [collapseWithChildren, hst, hen, Bool.false_and, Bool.false_eq_true, if_false]
    rw [← h3.blockSize, CollapsedMargin.is_zero.solve]
    have := h3.«end»
    simp only [Bool.false_and, Bool.false_eq_true, if_false] at this
    rw [this.solve]
    simp [jointMargin]
  · exact CollapsedMargin.is_new _
  · exact CollapsedMargin.is_new _
  · simp [collapseWithChildren, hst]

/-- C41: laid out alone, the border box of an in-flow block that is not relatively positioned
starts at 0; so after it has been moved by `d` it starts at `d`. -/
theorem C41_border_top (E : TextEnv) (n : Nat) (style : Style) (b : BlockLevelBox)
    (cb : ContainingBlock) (rank : Nat) (abs out : List AbsFragment) (fl : Bool) (f : Fragment)
    (hb : InFlowBox style b) (h : boxLayout E n b cb rank abs fl = .ok (f, out))
    (hp : style.val .position ≠ .relative) (d : Length) :
    ∃ g m children, f.translateBlock d = .box style g m children ∧ g.borderRect.startCorner.block = d := by
  cases n with
  | zero => cases h
  | succ n =>
    have hp' : Position.isRelativelyPositioned (style.val .position) = false := by
      cases h : style.val .position <;> simp_all [Position.isRelativelyPositioned]
    rw [boxLayout] at h
    have key : ∀ (p b : Sides Length) (x : Length), (p + b).blockStart + 0 + x - p.blockStart - b.blockStart
        = x := by
      intro p b x
      have : (p + b).blockStart = p.blockStart + b.blockStart := rfl
      rw [this]; ring
    cases hb with
    | same c =>
      simp only [boxLayoutWith] at h
      obtain ⟨fc, o, children, _, rfl⟩ := layoutInFlow_eq_ok h
      refine ⟨_, _, _, rfl, ?_⟩
      simp only [relativeAdjustement, hp']
      exact key _ _ _
    | independent c =>
      simp only [boxLayoutWith] at h
      obtain ⟨fc, o, children, _, rfl⟩ := layoutInFlow_eq_ok h
      refine ⟨_, _, _, rfl, ?_⟩
      simp only [relativeAdjustement, hp']
      exact key _ _ _

theorem lastEnd_of_not_solid : ∀ (P : List (Child × Length)), anySolid (P.map (·.1)) = false →
    lastEnd P = 0 := by
  intro P
  induction P with
  | nil => intro _; rfl
  | cons p P ih =>
    intro h
    obtain ⟨c, d⟩ := p
    cases c with
    | none => exact ih h
    | some c =>
      simp only [List.map_cons, anySolid, Bool.or_eq_false_iff, Bool.not_eq_eq_eq_not, Bool.not_false] at h
      simp only [lastEnd, h.1, if_true]
      exact ih h.2

/-- C41: a block whose margins collapse through has height 0, so that nothing can overlap it;
it contains no lines of text. -/
theorem C41_through_is_flat (E : TextEnv) (n : Nat) (style : Style) (b : BlockLevelBox)
    (hb : InFlowBox style b) (hs : b.sound) (hd : b.depth ≤ n) (cb : ContainingBlock) (hcb : cb.standard)
    (rank : Nat) (abs out : List AbsFragment) (floats : Bool) (g : BoxGeom) (m : CollapsedBlockMargins)
    (children : List Fragment)
    (h : boxLayout E n b cb rank abs floats = .ok (.box style g m children, out))
    (ht : m.collapsedThrough = true) :
    g.borderRect.size.block = 0 ∧ ∃ bs, b = .sameFormattingContextBlock style (.blockLevelBoxes bs) := by
  cases n with
  | zero => cases h
  | succ n =>
    cases hb with
    | independent c =>
      exfalso
      rw [boxLayout] at h
      simp only [boxLayoutWith] at h
      obtain ⟨fc, o, children, _, h1⟩ := layoutInFlow_eq_ok h
      injection h1 with _ _ h1 _
      rw [h1] at ht
      cases ht
    | same c =>
      cases c with
      | inlineFormattingContext st bs =>
        exfalso
        rw [boxLayout] at h
        simp only [boxLayoutWith] at h
        obtain ⟨fc, o, children, h0, h1⟩ := layoutInFlow_eq_ok h
        injection h1 with _ _ h1 _
        simp only [containerLayout, ifcLayout] at h0
        obtain ⟨⟨s, o'⟩, _, h0⟩ := bind_eq_ok.1 h0
        injection h0 with h0
        injection h0 with h0 _
        rw [h1, ← h0] at ht
        simp [collapseWithChildren, CollapsedBlockMargins.zero] at ht
      | blockLevelBoxes bs =>
        refine ⟨?_, bs, rfl⟩
        simp only [BlockLevelBox.depth, BlockContainer.depth] at hd
        obtain ⟨g', m', ch', ex', out', cs, ds, h1, _, h2⟩ :=
          C41_block E n style bs hs (by omega) cb hcb rank abs floats
        rw [h] at h1
        injection h1 with h1
        injection h1 with h1 _
        injection h1 with _ h3 h4 _
        subst h3 h4
        obtain ⟨h5, h6, _, _, h7⟩ := h2
        rw [ht] at h7
        have h7 := h7.symm
        simp only [Bool.and_eq_true, decide_eq_true_eq] at h7
        obtain ⟨⟨h8, h9, h10⟩, h11⟩ := h7
        obtain ⟨fs, hl1, _, hf, _⟩ := h5.alone
        have hlen : cs.length ≤ ds.length := by rw [h5.length, ← hl1, hf.length_eq]
        have h12 : lastEnd (cs.zip ds).reverse = 0 := by
          apply lastEnd_of_not_solid
          rw [List.map_reverse, List.map_fst_zip hlen]
          simpa using h11
        rw [h10, h12, h9] at h6
        have h6 : g.contentRect.size.block = 0 := by simpa [LengthOrAuto.autoIs] using h6
        show g.contentRect.size.block + (g.padding.blockStart + g.padding.blockEnd) +
          (g.border.blockStart + g.border.blockEnd) = 0
        rw [h6]
        linarith

/-- a block in a block: the margin of the inner one sticks out at the bottom and adjoins that
of the next block (no border), the top margin as well -/
example : blockTops (boxLayout blockEnv 4 (.independent plainStyle (.mk (.blockLevelBoxes [
      .sameFormattingContextBlock (plainStyle.set .marginTop (.length 2)) (.blockLevelBoxes [blockOf 4 5]),
      blockOf 3 6]) false)) blockCb 0 [] false) = some ([4, 19], 35) := by decide +kernel

/-- a negative margin pulls the second block over the first -/
example : blockTops (boxLayout blockEnv 3 (.independent plainStyle (.mk (.blockLevelBoxes [
      emptyBlock (plainStyle.set .height (.length 5)), blockOf (-3) 6]) false))
    blockCb 0 [] false) = some ([0, 2], 18) := by decide +kernel

end Sinab
