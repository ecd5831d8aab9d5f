import Verif.Spec.Relative
import Verif.Props.Positioned
import Verif.Props.Inline

/-! Relative positioning (C44). -/

namespace Sinab

/-! ## The shift -/

theorem relativeAdjust_eq (base : Length) (s e : LengthOrPercentageOrAuto) :
    relativeAdjust (s.percentageRelativeTo base) (e.percentageRelativeTo base) = axisShift base s e := by
  cases s <;> cases e <;> rfl

/-- C44: the shift of a relatively positioned box: the start offset wins over the end offset,
`auto` is no shift; other boxes are not shifted. -/
theorem C44_shift (style : Style) (w : Length) (h : LengthOrAuto) :
    relativeAdjustement style w h = relativeShift style w (h.autoIs 0) := by
  unfold relativeAdjustement relativeShift
  have hw : style.writingMode = (.horizontalTb, .ltr) := rfl
  cases hp : (style.val .position : Position) with
  | relative =>
    simp only [Position.isRelativelyPositioned, if_true]
    simp only [Style.boxOffsets, hw]
    simp [PSides.toFlowRelative, Sides.mapInlineAndBlockAxes, relativeAdjust_eq]
  | static => simp [Position.isRelativelyPositioned]; rfl
  | absolute => simp [Position.isRelativelyPositioned]; rfl

/-! ## Block-level boxes -/

theorem inFlowSizes_withoutOffsets (cb : ContainingBlock) (style : Style) (kind : BlockLevelKind) :
    inFlowSizes cb style.withoutOffsets kind = inFlowSizes cb style kind := rfl

theorem relativeShift_withoutOffsets (style : Style) (w h : Length) :
    relativeShift style.withoutOffsets w h = ⟨0, 0⟩ := by
  unfold relativeShift
  split <;> rfl

theorem layoutInFlow_withoutOffsets {absL : AbsLayout} {cb : ContainingBlock}
    {abs : List AbsFragment} {style : Style} {kind : BlockLevelKind} {contents} {f : Fragment}
    {out : List AbsFragment} (h : layoutInFlow absL cb abs style kind contents = .ok (f, out)) :
    ∃ g m ch, f = .box style (g.moveBy (relativeShift style g.contentRect.size.inline
        ((inFlowSizes cb style kind).blockSize.autoIs 0))) m ch ∧
      layoutInFlow absL cb abs style.withoutOffsets kind contents =
        .ok (.box style.withoutOffsets g m ch, out) := by
  unfold layoutInFlow at h ⊢
  simp only [inFlowSizes_withoutOffsets, C44_shift, relativeShift_withoutOffsets] at h ⊢
  have hw : style.withoutOffsets.writingMode = style.writingMode := rfl
  have hp : (style.withoutOffsets.val .position : Position) = style.val .position := rfl
  rw [hw, hp]
  split at h
  · cases h
  · rename_i hm
    rw [if_neg hm]
    obtain ⟨⟨fc, o⟩, h0, h⟩ := bind_eq_ok.1 h
    obtain ⟨children, h1, h⟩ := bind_eq_ok.1 h
    injection h with h
    injection h with h2 h3
    subst h2 h3
    simp only at h1 ⊢
    refine ⟨⟨⟨⟨(inFlowSizes cb style kind).pb.inlineStart + 0 +
        (inFlowSizes cb style kind).margin.inlineStart, (inFlowSizes cb style kind).pb.blockStart + 0⟩,
        ⟨(inFlowSizes cb style kind).inlineSize, (inFlowSizes cb style kind).blockSize.autoIs
            (collapseWithChildren (inFlowSizes cb style kind) fc).2⟩⟩,
        (inFlowSizes cb style kind).padding, (inFlowSizes cb style kind).border,
        (inFlowSizes cb style kind).margin⟩,
        (collapseWithChildren (inFlowSizes cb style kind) fc).1, children, ?_, ?_⟩
    · simp [BoxGeom.moveBy, add_right_comm]
    · simp only [h0, bind, Except.bind, h1, pure, Except.pure]

/-- C44, block-level boxes: with offsets, a box has the size, padding, border, margins and
contents that it has without, and only its place differs, by the shift that the offsets ask
for.  Percentages refer to the width and the given height of the box itself.  The absolutely
positioned boxes found in it are the same. -/
theorem C44_block {E : TextEnv} {n : Nat} {style : Style} {b : BlockLevelBox} {cb : ContainingBlock}
    {rank : Nat} {abs out : List AbsFragment} {fl : Bool} {f : Fragment} (hb : InFlowBox style b)
    (h : boxLayout E n b cb rank abs fl = .ok (f, out)) :
    ∃ g m ch, f = .box style (g.moveBy (relativeShift style g.contentRect.size.inline
        ((usedHeight style cb).autoIs 0))) m ch ∧
      boxLayout E n b.withoutOffsets cb rank abs fl = .ok (.box style.withoutOffsets g m ch, out) := by
  have hh : ∀ kind, (inFlowSizes cb style kind).blockSize = usedHeight style cb := by
    intro kind
    have hw : style.boxSize.block = style.val .height := rfl
    simp only [inFlowSizes, usedHeight, hw]
    cases (style.val .height : LengthOrPercentageOrAuto) with
    | percentage p => cases cb.blockSize <;> rfl
    | _ => rfl
  cases n with
  | zero => cases h
  | succ n =>
    rw [boxLayout] at h ⊢
    cases hb with
    | same c =>
      simp only [boxLayoutWith] at h
      obtain ⟨g, m, ch, h1, h2⟩ := layoutInFlow_withoutOffsets h
      rw [hh] at h1
      exact ⟨g, m, ch, h1, h2⟩
    | independent c =>
      simp only [boxLayoutWith] at h
      obtain ⟨g, m, ch, h1, h2⟩ := layoutInFlow_withoutOffsets h
      rw [hh] at h1
      exact ⟨g, m, ch, h1, h2⟩

/-! ## Siblings of block-level boxes -/

theorem LaidOut.append {boxL : BoxLayout} {cb : ContainingBlock} {k bs fs new}
    (h : LaidOut boxL cb k bs fs new) : ∀ {bs' fs' new'},
    LaidOut boxL cb (k + bs.length) bs' fs' new' →
    LaidOut boxL cb k (bs ++ bs') (fs ++ fs') (new ++ new') := by
  induction h with
  | nil => intro bs' fs' new' h'; exact h'
  | @cons k b bs f fs new news h1 _ ih =>
    intro bs' fs' new' h'
    rw [List.append_assoc]
    refine .cons h1 (ih ?_)
    convert h' using 1
    simp only [List.length_cons]
    omega

theorem placeFragment_moved {st st' : PlacementState} {style : Style} {g : BoxGeom}
    {m : CollapsedBlockMargins} {ch : List Fragment} {f : Fragment}
    (h : placeFragment st (.box style g m ch) = .ok (f, st')) :
    ∃ k, f = .box style { g with contentRect := g.contentRect.addBlock k } m ch ∧
      ∀ style' d, placeFragment st (.box style' (g.moveBy d) m ch) =
        .ok (.box style' (({ g with contentRect := g.contentRect.addBlock k } : BoxGeom).moveBy d) m ch,
          st') := by
  unfold placeFragment at h
  simp only at h
  cases hc : st.collapses with
  | true =>
    rw [if_pos hc] at h
    split at h
    · cases h
    · rename_i hs
      rw [not_not] at hs
      cases ht : m.collapsedThrough with
      | true =>
        rw [if_pos ht] at h
        injection h with h
        injection h with h1 h2
        subst h1 h2
        refine ⟨0, by simp [Rect.addBlock], fun style' d => ?_⟩
        simp [placeFragment, hc, hs, ht, BoxGeom.moveBy, Rect.addBlock]
      | false =>
        simp only [ht, Bool.false_eq_true, if_false] at h
        injection h with h
        injection h with h1 h2
        subst h1 h2
        refine ⟨_, rfl, fun style' d => ?_⟩
        simp [placeFragment, hc, hs, ht, BoxGeom.moveBy, Rect.addBlock, add_right_comm]
  | false =>
    simp only [hc, Bool.false_eq_true, if_false] at h
    cases ht : m.collapsedThrough with
    | true =>
      rw [if_pos ht] at h
      injection h with h
      injection h with h1 h2
      subst h1 h2
      refine ⟨_, rfl, fun style' d => ?_⟩
      simp [placeFragment, hc, ht, BoxGeom.moveBy, Rect.addBlock, add_right_comm]
    | false =>
      simp only [ht, Bool.false_eq_true, if_false] at h
      injection h with h
      injection h with h1 h2
      subst h1 h2
      refine ⟨_, rfl, fun style' d => ?_⟩
      simp [placeFragment, hc, ht, BoxGeom.moveBy, Rect.addBlock, add_right_comm]

theorem placeAll_append {fs gs : List Fragment} {st st2 : PlacementState} {r : List Fragment} :
    placeAll st (fs ++ gs) = .ok (r, st2) ↔
      ∃ r1 st1 r2, placeAll st fs = .ok (r1, st1) ∧ placeAll st1 gs = .ok (r2, st2) ∧ r = r1 ++ r2 := by
  induction fs generalizing st r with
  | nil =>
    constructor
    · intro h; exact ⟨[], st, r, rfl, h, rfl⟩
    · rintro ⟨r1, st1, r2, h1, h2, rfl⟩
      injection h1 with h1
      injection h1 with h1 h3
      subst h1 h3
      exact h2
  | cons f fs ih =>
    simp only [List.cons_append, placeAll, bind_eq_ok]
    constructor
    · rintro ⟨⟨f', st'⟩, h1, ⟨r', st''⟩, h2, h3⟩
      injection h3 with h3
      injection h3 with h3 h4
      subst h3 h4
      obtain ⟨r1, st1, r2, h4, h5, rfl⟩ := ih.1 h2
      exact ⟨f' :: r1, st1, r2, ⟨_, h1, _, h4, rfl⟩, h5, rfl⟩
    · rintro ⟨r1, st1, r2, ⟨⟨f', st'⟩, h1, ⟨r', st''⟩, h2, h3⟩, h4, rfl⟩
      injection h3 with h3
      injection h3 with h3 h5
      subst h3 h5
      exact ⟨_, h1, ⟨_, _⟩, ih.2 ⟨r', st'', r2, h2, h4, rfl⟩, rfl⟩

theorem placeAll_length {fs r : List Fragment} {st st' : PlacementState}
    (h : placeAll st fs = .ok (r, st')) : r.length = fs.length := by
  induction fs generalizing st r with
  | nil =>
    injection h with h
    injection h with h1 h2
    subst h1
    rfl
  | cons f fs ih =>
    simp only [placeAll, bind_eq_ok] at h
    obtain ⟨⟨f', st'⟩, h1, ⟨r', st''⟩, h2, h3⟩ := h
    injection h3 with h3
    injection h3 with h3 h4
    subst h3 h4
    simp [ih h2]

theorem adjustStaticPositions_congr {cs cs' : List Fragment} {rank : Nat} {as : List AbsFragment}
    (h : ∀ a ∈ as, adjustStaticPosition cs' rank a = adjustStaticPosition cs rank a) :
    adjustStaticPositions cs' rank as = adjustStaticPositions cs rank as := by
  induction as with
  | nil => rfl
  | cons a as ih =>
    simp only [List.mem_cons, forall_eq_or_imp] at h
    simp only [adjustStaticPositions, h.1, ih h.2]

theorem boxLayout_in_flow_out {E : TextEnv} {n : Nat} {style : Style} {b : BlockLevelBox}
    {cb : ContainingBlock} {rank : Nat} {abs out : List AbsFragment} {fl : Bool} {f : Fragment}
    (hb : InFlowBox style b) (hp : (style.val .position : Position) = .relative)
    (h : boxLayout E n b cb rank abs fl = .ok (f, out)) : out = abs := by
  have hin : ∀ {absL kind contents}, layoutInFlow absL cb abs style kind contents = .ok (f, out) →
      out = abs := by
    intro absL kind contents h
    unfold layoutInFlow at h
    simp only at h
    split at h
    · cases h
    · obtain ⟨⟨fc, o⟩, h0, h⟩ := bind_eq_ok.1 h
      obtain ⟨children, _, h⟩ := bind_eq_ok.1 h
      injection h with h
      injection h with h1 h2
      rw [← h2, hp]
      simp [Position.isRelativelyPositioned]
  cases n with
  | zero => cases h
  | succ n =>
    rw [boxLayout] at h
    cases hb with
    | same c => simp only [boxLayoutWith] at h; exact hin h
    | independent c => simp only [boxLayoutWith] at h; exact hin h

/-- C44, siblings: if one child of a block container is shifted, the siblings before and
after it have the same fragments (in the same places) as without the offsets, the container
gets the same height, its margins are the same, and all absolutely positioned boxes found
have the same static positions. -/
theorem C44_siblings (E : TextEnv) (n : Nat) (style : Style) (b : BlockLevelBox)
    (before after : List BlockLevelBox) (cb : ContainingBlock) (rank : Nat) (abs : List AbsFragment)
    (floats collapsible : Bool) (hb : InFlowBox style b) (hcb : cb.standard)
    (hs : blockSound (before ++ b :: after)) (hd : blockDepth (before ++ b :: after) ≤ n) :
    ∃ fs1 fs2 g m ch size margins out,
      fs1.length = before.length ∧ fs2.length = after.length ∧
      layoutBlockLevelChildren (boxLayout E n) (before ++ b.withoutOffsets :: after) cb rank abs floats
        collapsible = .ok (⟨fs1 ++ .box style.withoutOffsets g m ch :: fs2, size, margins⟩, out) ∧
      layoutBlockLevelChildren (boxLayout E n) (before ++ b :: after) cb rank abs floats collapsible =
        .ok (⟨fs1 ++ .box style (g.moveBy (relativeShift style g.contentRect.size.inline
          ((usedHeight style cb).autoIs 0))) m ch :: fs2, size, margins⟩, out) := by
  have hsplit : ∀ l : List BlockLevelBox, blockSound (l ++ b :: after) →
      blockDepth (l ++ b :: after) ≤ n →
      (blockSound l ∧ b.sound ∧ blockSound after) ∧
        (blockDepth l ≤ n ∧ b.depth ≤ n ∧ blockDepth after ≤ n) := by
    intro l
    induction l with
    | nil => intro h1 h2; simpa [blockSound, blockDepth] using And.intro h1 h2
    | cons c l ih =>
      intro h1 h2
      simp only [List.cons_append, blockSound, blockDepth, max_le_iff] at h1 h2 ⊢
      have := ih h1.2 h2.2
      exact ⟨⟨⟨h1.1, this.1.1⟩, this.1.2⟩, ⟨h2.1, this.2.1⟩, this.2.2⟩
  obtain ⟨⟨s1, s2, s3⟩, d1, d2, d3⟩ := hsplit before hs hd
  have hg := (layout_good E n).1
  obtain ⟨fs1, new1, cs1, l1, c1, r1⟩ := exists_laidOut hg hcb before 0 s1 d1
  obtain ⟨f, newb, hf, ⟨cb', hcb'⟩, rb⟩ := hg b cb (0 + before.length) s2 d2 hcb
  obtain ⟨fs2, new2, cs2, l2, c2, r2⟩ := exists_laidOut hg hcb after (0 + before.length + 1) s3 d3
  obtain ⟨g, m, ch, hfe, _⟩ := C44_block hb (hf [] false)
  generalize hdd : relativeShift style g.contentRect.size.inline
    ((usedHeight style cb).autoIs 0) = d at hfe
  subst hfe
  have hf' : ∀ abs fl, boxLayout E n b.withoutOffsets cb (0 + before.length) abs fl =
      .ok (.box style.withoutOffsets g m ch, abs ++ newb) := by
    intro abs fl
    obtain ⟨g', m', ch', h1, h2⟩ := C44_block hb (hf abs fl)
    injection h1 with _ h1 h3 h4
    subst h3 h4
    have hsz : g'.contentRect.size = g.contentRect.size := by
      have := congrArg (fun g : BoxGeom => g.contentRect.size) h1
      exact this.symm
    rw [hsz, hdd] at h1
    have hgg : g' = g := by
      obtain ⟨⟨⟨i, bl⟩, sz⟩, p, bo, ma⟩ := g
      obtain ⟨⟨⟨i', bl'⟩, sz'⟩, p', bo', ma'⟩ := g'
      simp only [BoxGeom.moveBy, BoxGeom.mk.injEq, Rect.mk.injEq, Vec2.mk.injEq, add_left_inj] at h1
      obtain ⟨⟨⟨rfl, rfl⟩, rfl⟩, rfl, rfl, rfl⟩ := h1
      rfl
    rw [h2, hgg]
  have hd0 : newb = [] ∨ d = ⟨0, 0⟩ := by
    by_cases hp : (style.val .position : Position) = .relative
    · left
      have := boxLayout_in_flow_out hb hp (hf [] false)
      simpa using this
    · right
      rw [← hdd, relativeShift, if_neg hp]
  have hL : LaidOut (boxLayout E n) cb 0 (before ++ b :: after)
      (fs1 ++ .box style (g.moveBy d) m ch :: fs2) (new1 ++ (newb ++ new2)) :=
    l1.append (.cons hf l2)
  have hL' : LaidOut (boxLayout E n) cb 0 (before ++ b.withoutOffsets :: after)
      (fs1 ++ .box style.withoutOffsets g m ch :: fs2) (new1 ++ (newb ++ new2)) :=
    l1.append (.cons hf' l2)
  -- placement
  have hch : IsChild (.box style.withoutOffsets g m ch) cb' := by
    cases hcb' with
    | box e1 e2 => exact .box e1 e2
  obtain ⟨ds, st', _, hp', _, _⟩ := placeAll_spec (forall₂_append c1 (.cons hch c2))
    (PlacedInv.init collapsible) trivial
  obtain ⟨p1, st1, p2, e1, e2, e3⟩ := placeAll_append.1 hp'
  simp only [placeAll, bind_eq_ok] at e2
  obtain ⟨⟨q, st2⟩, e4, ⟨q2, st3⟩, e5, e6⟩ := e2
  injection e6 with e6
  injection e6 with e6 e7
  subst e6 e7
  obtain ⟨k, rfl, e8⟩ := placeFragment_moved e4
  have hP' : placeAll (PlacementState.start collapsible)
      (fs1 ++ .box style.withoutOffsets g m ch :: fs2) = .ok (p1 ++ .box style.withoutOffsets
        { g with contentRect := g.contentRect.addBlock k } m ch :: q2, st3) := by
    rw [hp', e3]
  have hP : placeAll (PlacementState.start collapsible)
      (fs1 ++ .box style (g.moveBy d) m ch :: fs2) = .ok (p1 ++ .box style
        (({ g with contentRect := g.contentRect.addBlock k } : BoxGeom).moveBy d) m ch :: q2, st3) := by
    refine placeAll_append.2 ⟨p1, st1, _, e1, ?_, rfl⟩
    simp only [placeAll, bind_eq_ok]
    exact ⟨_, e8 style d, (q2, st3), e5, rfl⟩
  have hlen : p1.length = before.length := by rw [placeAll_length e1, l1.length]
  -- static positions
  have hadj : adjustStaticPositions (p1 ++ .box style.withoutOffsets
        { g with contentRect := g.contentRect.addBlock k } m ch :: q2) rank (new1 ++ (newb ++ new2)) =
      adjustStaticPositions (p1 ++ .box style
        (({ g with contentRect := g.contentRect.addBlock k } : BoxGeom).moveBy d) m ch :: q2) rank
        (new1 ++ (newb ++ new2)) := by
    refine adjustStaticPositions_congr fun a ha => ?_
    have hne : a.treeRank ≠ p1.length → ∀ x : Fragment, ∀ y : Fragment,
        (p1 ++ x :: q2)[a.treeRank]? = (p1 ++ y :: q2)[a.treeRank]? := by
      intro hne x y
      rcases Nat.lt_or_gt_of_ne hne with hlt | hgt
      · rw [List.getElem?_append_left hlt, List.getElem?_append_left hlt]
      · rw [List.getElem?_append_right hgt.le, List.getElem?_append_right hgt.le]
        obtain ⟨j, hj⟩ : ∃ j, a.treeRank - p1.length = j + 1 := ⟨a.treeRank - p1.length - 1, by omega⟩
        rw [hj]
        rfl
    by_cases hr : a.treeRank = p1.length
    · rcases hd0 with hd0 | hd0
      · exfalso
        subst hd0
        rcases List.mem_append.1 ha with ha | ha
        · have := r1 a ha; omega
        · rw [List.nil_append] at ha
          have := r2 a ha; omega
      · subst hd0
        simp only [adjustStaticPosition, hr, List.getElem?_append_right le_rfl, Nat.sub_self,
          List.getElem?_cons_zero, BoxGeom.moveBy, add_zero]
    · unfold adjustStaticPosition
      rw [hne hr _ (.box style
        (({ g with contentRect := g.contentRect.addBlock k } : BoxGeom).moveBy d) m ch)]
  obtain ⟨fc, out, hgood, _⟩ := layoutBlockLevelChildren_good hg hcb (before ++ b :: after) hs hd rank
    collapsible
  have hfc := hgood abs floats
  have key : ∀ {bs fs r}, LaidOut (boxLayout E n) cb 0 bs fs (new1 ++ (newb ++ new2)) →
      placeAll (PlacementState.start collapsible) fs = .ok (r, st3) →
      layoutBlockLevelChildren (boxLayout E n) bs cb rank abs floats collapsible =
      (adjustStaticPositions r rank (new1 ++ (newb ++ new2))).bind fun adj =>
        .ok (⟨r, st3.position, ⟨st3.collapses, st3.startMargin, st3.currentMargin⟩⟩, abs ++ adj) := by
    intro bs fs r h1 h2
    unfold layoutBlockLevelChildren
    cases floats with
    | true =>
      simp only [if_true, h1.layoutAndPlaceEach abs h2, bind, Except.bind]
      rw [List.drop_left, List.take_left]
      rfl
    | false =>
      simp only [Bool.false_eq_true, if_false, h1.layoutEach abs, bind, Except.bind, h2, pure,
        Except.pure]
      rw [List.drop_left, List.take_left]
  rw [key hL hP] at hfc
  have k2 := key hL' hP'
  rw [hadj] at k2
  rw [key hL hP]
  cases hA : adjustStaticPositions (p1 ++ .box style
        (({ g with contentRect := g.contentRect.addBlock k } : BoxGeom).moveBy d) m ch :: q2) rank
        (new1 ++ (newb ++ new2)) with
  | error e => rw [hA] at hfc; cases hfc
  | ok adj =>
    rw [hA] at k2
    exact ⟨p1, q2, _, m, ch, _, _, _, hlen, by rw [placeAll_length e5, l2.length], k2, by
      have : relativeShift style ({ g with contentRect := g.contentRect.addBlock k } :
          BoxGeom).contentRect.size.inline ((usedHeight style cb).autoIs 0) = d := hdd
      rw [this]
      rfl⟩

/-! ## Inline boxes -/

mutual
/-- an item of a line with all offsets `auto` -/
def Item.withoutOffsets : Item → Item
  | .text st font t nl => .text st.withoutOffsets font t nl
  | .box st o s e items => .box st.withoutOffsets o s e (itemsWithoutOffsets items)

/-- items of a line with all offsets `auto` -/
def itemsWithoutOffsets : List Item → List Item
  | [] => []
  | i :: is => i.withoutOffsets :: itemsWithoutOffsets is
end

theorem itemsWithoutOffsets_append (a b : List Item) :
    itemsWithoutOffsets (a ++ b) = itemsWithoutOffsets a ++ itemsWithoutOffsets b := by
  induction a with
  | nil => rfl
  | cons i a ih => simp [itemsWithoutOffsets, ih]

mutual
theorem Item.advance_withoutOffsets (E : TextEnv) (w : ℚ) : ∀ (i : Item) (x : ℚ),
    i.withoutOffsets.advance E w x = i.advance E w x
  | .text .., _ => rfl
  | .box st o s e items, x => by
    have h1 : startSpace w st.withoutOffsets = startSpace w st := rfl
    have h2 : endSpace w st.withoutOffsets = endSpace w st := rfl
    simp only [Item.withoutOffsets, Item.advance, h1, h2, advance_withoutOffsets E w items]

theorem advance_withoutOffsets (E : TextEnv) (w : ℚ) : ∀ (is : List Item) (x : ℚ),
    advance E w (itemsWithoutOffsets is) x = advance E w is x
  | [], _ => rfl
  | i :: is, x => by
    simp only [itemsWithoutOffsets, advance, i.advance_withoutOffsets E w, advance_withoutOffsets E w is]
end

mutual
theorem Item.extents_withoutOffsets (E : TextEnv) (hE : ∀ s : Style, E.font s.withoutOffsets = E.font s) :
    ∀ (i : Item) (f : Font) (d : ℚ), i.withoutOffsets.extents E f d = i.extents E f d
  | .text .., _, _ => rfl
  | .box st o s e items, f, d => by
    have h1 : ∀ a b, shiftOf st.withoutOffsets a b = shiftOf st a b := fun _ _ => rfl
    simp only [Item.withoutOffsets, Item.extents, hE, h1, extents_withoutOffsets E hE items]

theorem extents_withoutOffsets (E : TextEnv) (hE : ∀ s : Style, E.font s.withoutOffsets = E.font s) :
    ∀ (is : List Item) (f : Font) (d : ℚ), extents E (itemsWithoutOffsets is) f d = extents E is f d
  | [], _, _ => rfl
  | i :: is, f, d => by
    simp only [itemsWithoutOffsets, extents, i.extents_withoutOffsets E hE, extents_withoutOffsets E hE is]
end

theorem endPos_withoutOffsets (E : TextEnv) (w : ℚ) (L : List Line) (x : ℚ) :
    endPos E w x (L.map itemsWithoutOffsets) = endPos E w x L := by
  induction L generalizing x with
  | nil => rfl
  | cons l L ih =>
    cases L with
    | nil => simp [endPos, advance_withoutOffsets]
    | cons l' L => exact ih 0

theorem joinLines_withoutOffsets (A B : List Line) :
    joinLines (A.map itemsWithoutOffsets) (B.map itemsWithoutOffsets) =
      (joinLines A B).map itemsWithoutOffsets := by
  induction A with
  | nil => rfl
  | cons a A ih =>
    cases A with
    | nil => cases B <;> simp [joinLines, itemsWithoutOffsets_append]
    | cons a' A => simpa [joinLines] using ih

theorem decorate_withoutOffsets (st : Style) (o s l : Bool) (L : List Line) :
    decorate st.withoutOffsets o s l (L.map itemsWithoutOffsets) =
      (decorate st o s l L).map itemsWithoutOffsets := by
  induction L generalizing o s with
  | nil => rfl
  | cons a L ih =>
    cases L with
    | nil => rfl
    | cons a' L => exact congrArg _ (ih false false)

mutual
theorem InlineLevelBox.linesOf_withoutOffsets (E : TextEnv) (w : ℚ) : ∀ (b : InlineLevelBox) (x : ℚ),
    b.withoutOffsets.linesOf E w x = (b.linesOf E w x).map itemsWithoutOffsets
  | .textRun st t font, x => by
    have h : (st.withoutOffsets.val .whiteSpace : WhiteSpace) = st.val .whiteSpace := rfl
    simp only [InlineLevelBox.withoutOffsets, InlineLevelBox.linesOf, h, List.map_map]
    rfl
  | .inlineBox st f l children, x => by
    have h1 : startSpace w st.withoutOffsets = startSpace w st := rfl
    simp only [InlineLevelBox.withoutOffsets, InlineLevelBox.linesOf, h1,
      inlineLines_withoutOffsets E w children, decorate_withoutOffsets]
  | .outOfFlowAbsolutelyPositionedBox .., _ => rfl
  | .outOfFlowFloatBox .., _ => rfl

theorem inlineLines_withoutOffsets (E : TextEnv) (w : ℚ) : ∀ (bs : List InlineLevelBox) (x : ℚ),
    inlineLines E w (inlineWithoutOffsets bs) x = (inlineLines E w bs x).map itemsWithoutOffsets
  | [], _ => rfl
  | b :: bs, x => by
    simp only [inlineWithoutOffsets, inlineLines, b.linesOf_withoutOffsets E w, endPos_withoutOffsets,
      inlineLines_withoutOffsets E w bs, joinLines_withoutOffsets]
end

mutual
/-- all boxes of an item are on their first line -/
def Item.allFirst : Item → Prop
  | .text .. => True
  | .box _ o _ _ items => o = true ∧ itemsAllFirst items

/-- all boxes of some items are on their first line -/
def itemsAllFirst : List Item → Prop
  | [] => True
  | i :: is => i.allFirst ∧ itemsAllFirst is
end

theorem itemsAllFirst_append {a b : List Item} (ha : itemsAllFirst a) (hb : itemsAllFirst b) :
    itemsAllFirst (a ++ b) := by
  induction a with
  | nil => exact hb
  | cons i a ih => exact ⟨ha.1, ih ha.2⟩

/-- all boxes on the first of some lines are on their first line -/
def firstLineFirst (L : List Line) : Prop := ∀ l ∈ L.head?, itemsAllFirst l

theorem joinLines_firstLineFirst {A B : List Line} (ha : firstLineFirst A) (hb : firstLineFirst B) :
    firstLineFirst (joinLines A B) := by
  cases A with
  | nil => exact hb
  | cons a A =>
    have ha' : itemsAllFirst a := ha a rfl
    cases A with
    | nil =>
      cases B with
      | nil => exact ha
      | cons b B =>
        rintro l hl
        obtain rfl : a ++ b = l := by simpa [joinLines] using hl
        exact itemsAllFirst_append ha' (hb b rfl)
    | cons a' A =>
      rintro l hl
      obtain rfl : a = l := by simpa [joinLines] using hl
      exact ha'

mutual
theorem InlineLevelBox.linesOf_first (E : TextEnv) (w : ℚ) : ∀ (b : InlineLevelBox) (x : ℚ),
    firstLineFirst (b.linesOf E w x)
  | .textRun st t font, x => by
    intro l hl
    simp only [InlineLevelBox.linesOf, List.head?_map, Option.mem_def, Option.map_eq_some_iff] at hl
    obtain ⟨p, _, rfl⟩ := hl
    exact ⟨trivial, trivial⟩
  | .inlineBox st f l children, x => by
    have ih := inlineLines_first E w children (if f then x + startSpace w st else x)
    simp only [InlineLevelBox.linesOf]
    generalize inlineLines E w children (if f then x + startSpace w st else x) = L at ih
    intro l' hl'
    cases L with
    | nil => cases hl'
    | cons a L =>
      have := ih a rfl
      cases L with
      | nil =>
        obtain rfl : [Item.box st true f l a] = l' := by simpa [decorate] using hl'
        exact ⟨⟨rfl, this⟩, trivial⟩
      | cons a' L =>
        obtain rfl : [Item.box st true f false a] = l' := by simpa [decorate] using hl'
        exact ⟨⟨rfl, this⟩, trivial⟩
  | .outOfFlowAbsolutelyPositionedBox .., _ => by
    intro l hl
    obtain rfl : [] = l := by simpa [InlineLevelBox.linesOf] using hl
    trivial
  | .outOfFlowFloatBox .., _ => by
    intro l hl
    obtain rfl : [] = l := by simpa [InlineLevelBox.linesOf] using hl
    trivial

theorem inlineLines_first (E : TextEnv) (w : ℚ) : ∀ (bs : List InlineLevelBox) (x : ℚ),
    firstLineFirst (inlineLines E w bs x)
  | [], _ => by
    intro l hl
    obtain rfl : [] = l := by simpa [inlineLines] using hl
    trivial
  | b :: bs, x => by
    rw [inlineLines]
    exact joinLines_firstLineFirst (b.linesOf_first E w x) (inlineLines_first E w bs _)
end

mutual
theorem Item.place_moved (E : TextEnv) (hE : ∀ s : Style, E.font s.withoutOffsets = E.font s)
    (cb : ContainingBlock) (all : Bool) : ∀ (i : Item) (f : Font) (o x : ℚ) (fs' fs : List Fragment),
    (all = true → i.allFirst) → MovedInline cb all fs' fs →
    MovedInline cb all (i.withoutOffsets.place E cb f o x ++ fs') (i.place E cb f o x ++ fs)
  | .text st font t nl, f, o, x, fs', fs, _, h => by
    simp only [Item.withoutOffsets, Item.place]
    split
    · exact h
    · exact .text h
  | .box st onFirst s e items, f, o, x, fs', fs, hf, h => by
    have h1 : startSpace cb.inlineSize st.withoutOffsets = startSpace cb.inlineSize st := rfl
    have h2 : ∀ a b, shiftOf st.withoutOffsets a b = shiftOf st a b := fun _ _ => rfl
    have ih := place_moved E hE cb all items (E.font st)
      (if s then x + startSpace cb.inlineSize st else x)
      (if s then x + startSpace cb.inlineSize st else x) (fun ha => (hf ha).2)
    simp only [Item.withoutOffsets, Item.place, h1, hE, h2, advance_withoutOffsets, C44_shift,
      relativeShift_withoutOffsets, List.singleton_append]
    have hd : (if onFirst then (relativeShift st cb.inlineSize (cb.blockSize.autoIs 0)).inline else 0) =
        (relativeShift st cb.inlineSize (cb.blockSize.autoIs 0)).inline ∨
        (all = false ∧ (if onFirst then
          (relativeShift st cb.inlineSize (cb.blockSize.autoIs 0)).inline else 0) = 0) := by
      cases onFirst with
      | true => exact .inl rfl
      | false =>
        cases all with
        | false => exact .inr ⟨rfl, rfl⟩
        | true => exact absurd (hf rfl).1 (by simp)
    have := MovedInline.box (cb := cb) (all := all) (style := st) (m := .zero)
      (g := { contentRect :=
          ⟨⟨(if s then x + startSpace cb.inlineSize st else x) - o + 0,
            shiftOf st (E.font st) f + 0 + (f.ascent - (E.font st).ascent)⟩,
           ⟨advance E cb.inlineSize items (if s then x + startSpace cb.inlineSize st else x) -
              (if s then x + startSpace cb.inlineSize st else x), (E.font st).ascent + (E.font st).descent⟩⟩
              padding := cutSides s e (st.padding.percentagesRelativeTo cb.inlineSize)
              border := cutSides s e (st.borderWidth.percentagesRelativeTo cb.inlineSize)
              margin := cutSides s e (inlineMargin cb.inlineSize st) })
      (d := ⟨if onFirst then (relativeShift st cb.inlineSize (cb.blockSize.autoIs 0)).inline else 0,
        (relativeShift st cb.inlineSize (cb.blockSize.autoIs 0)).block⟩) rfl hd ih h
    convert this using 3
    · simp
      exact ⟨rfl, rfl, rfl⟩
    · simp only [BoxGeom.moveBy, add_zero]
      congr 3
      ring

theorem place_moved (E : TextEnv) (hE : ∀ s : Style, E.font s.withoutOffsets = E.font s)
    (cb : ContainingBlock) (all : Bool) : ∀ (is : List Item) (f : Font) (o x : ℚ),
    (all = true → itemsAllFirst is) →
    MovedInline cb all (place E cb (itemsWithoutOffsets is) f o x) (place E cb is f o x)
  | [], _, _, _, _ => .nil
  | i :: is, f, o, x, h => by
    simp only [itemsWithoutOffsets, place, i.advance_withoutOffsets]
    exact i.place_moved E hE cb all f o x _ _ (fun ha => (h ha).1)
      (place_moved E hE cb all is f o _ (fun ha => (h ha).2))
end

theorem MovedInline.translate {cb : ContainingBlock} {all : Bool} {fs' fs : List Fragment}
    (h : MovedInline cb all fs' fs) (b : Length) :
    MovedInline cb all (fs'.map (Fragment.translateBlock b)) (fs.map (Fragment.translateBlock b)) := by
  induction h with
  | nil => exact .nil
  | text _ ih => exact .text ih
  | @box style g m ch' ch fs' fs d h1 h2 h3 _ _ ih =>
    have := MovedInline.box (g := { g with contentRect := g.contentRect.addBlock b }) (m := m) h1 h2 h3 ih
    simp only [List.map_cons, Fragment.translateBlock]
    convert this using 3
    simp [BoxGeom.moveBy, Rect.addBlock, add_right_comm]

/-- the layouts of a paragraph with and without offsets: same lines, same height, boxes moved -/
theorem inline_moved (E : TextEnv) (hE : ∀ s : Style, E.font s.withoutOffsets = E.font s)
    (cb : ContainingBlock) (align : TextAlign) (root : Font) (L : List Line) (y : ℚ) :
    (firstLineFirst L → ∀ l ∈ (placeLines E cb align root y (L.map itemsWithoutOffsets)).head?,
      ∀ l' ∈ (placeLines E cb align root y L).head?, MovedLine cb true l l') ∧
    List.Forall₂ (MovedLine cb false) (placeLines E cb align root y (L.map itemsWithoutOffsets))
      (placeLines E cb align root y L) ∧
    pageHeight E root (L.map itemsWithoutOffsets) = pageHeight E root L := by
  have hx : ∀ l : Line, extents E (itemsWithoutOffsets l) root 0 = extents E l root 0 :=
    fun l => extents_withoutOffsets E hE l root 0
  have hh : ∀ l, lineHeight E root (itemsWithoutOffsets l) = lineHeight E root l := by
    intro l; simp only [lineHeight, lineAscent, lineDescent, hx]
  have ha : ∀ l, lineAscent E root (itemsWithoutOffsets l) = lineAscent E root l := by
    intro l; simp only [lineAscent, hx]
  refine ⟨?_, ?_, ?_⟩
  · cases L with
    | nil => intro _ l hl; cases hl
    | cons a L =>
      intro hf l hl l' hl'
      simp only [List.map_cons, placeLines, List.head?_cons, Option.mem_def, Option.some.injEq] at hl hl'
      subst hl hl'
      refine ⟨by rw [advance_withoutOffsets, hh], rfl, ?_⟩
      rw [ha]
      exact (place_moved E hE cb true a root 0 0 (fun _ => hf a rfl)).translate _
  · induction L generalizing y with
    | nil => exact .nil
    | cons a L ih =>
      simp only [List.map_cons, placeLines]
      refine .cons ⟨by rw [advance_withoutOffsets, hh], rfl, ?_⟩ ?_
      · rw [ha]
        exact (place_moved E hE cb false a root 0 0 (by simp)).translate _
      · rw [hh]
        exact ih _
  · simp only [pageHeight, List.map_map]
    congr 2
    funext l
    exact hh l

mutual
theorem InlineLevelBox.absOk_withoutOffsets : ∀ b : InlineLevelBox, b.absOk → b.withoutOffsets.absOk
  | .inlineBox _ _ _ children, h => by
    simp only [InlineLevelBox.withoutOffsets, InlineLevelBox.absOk] at h ⊢
    exact inlineAbsOk_withoutOffsets children h
  | .textRun .., _ => trivial
  | .outOfFlowAbsolutelyPositionedBox _ _, h => h
  | .outOfFlowFloatBox _ _, _ => trivial

theorem inlineAbsOk_withoutOffsets : ∀ bs : List InlineLevelBox, inlineAbsOk bs →
    inlineAbsOk (inlineWithoutOffsets bs)
  | [], _ => trivial
  | b :: bs, h => ⟨b.absOk_withoutOffsets h.1, inlineAbsOk_withoutOffsets bs h.2⟩
end

/-- an open box with all offsets `auto` -/
def GBox.withoutOffsets (b : GBox) : GBox :=
  { b with style := b.style.withoutOffsets, items := itemsWithoutOffsets b.items }

/-- a partly filled page with all offsets `auto` -/
def Ghost.withoutOffsets (G : Ghost) : Ghost :=
  ⟨G.done.map itemsWithoutOffsets, G.stack.map GBox.withoutOffsets, itemsWithoutOffsets G.cur, G.rem⟩

theorem ctx_withoutOffsets (E : TextEnv) (hE : ∀ s : Style, E.font s.withoutOffsets = E.font s) (w : ℚ)
    (root : Font) (g : List GBox) :
    ctx E w root (g.map GBox.withoutOffsets) = ctx E w root g := by
  induction g with
  | nil => rfl
  | cons b g ih =>
    have h1 : startSpace w b.style.withoutOffsets = startSpace w b.style := rfl
    have h2 : ∀ c d, shiftOf b.style.withoutOffsets c d = shiftOf b.style c d := fun _ _ => rfl
    simp only [List.map_cons, ctx, ih, GBox.withoutOffsets, advance_withoutOffsets, hE, h1, h2]

theorem closeAll_withoutOffsets (g : List GBox) (items : List Item) :
    closeAll (g.map GBox.withoutOffsets) (itemsWithoutOffsets items) =
      itemsWithoutOffsets (closeAll g items) := by
  induction g generalizing items with
  | nil => rfl
  | cons b g ih =>
    simp only [List.map_cons, closeAll]
    rw [← ih, itemsWithoutOffsets_append]
    rfl

theorem Ghost.extend_withoutOffsets (L : List Line) (G : Ghost) :
    (G.extend L).withoutOffsets = G.withoutOffsets.extend (L.map itemsWithoutOffsets) := by
  induction L generalizing G with
  | nil => rfl
  | cons l L ih =>
    cases L with
    | nil => simp [Ghost.extend, Ghost.add, Ghost.withoutOffsets, itemsWithoutOffsets_append]
    | cons l' L =>
      rw [Ghost.extend, ih]
      simp only [List.map_cons, Ghost.extend]
      congr 1
      simp only [Ghost.line, Ghost.add, Ghost.withoutOffsets, List.map_append, List.map_cons,
        List.map_nil, ← closeAll_withoutOffsets, itemsWithoutOffsets_append, List.map_map]
      rfl

theorem pageHeight_withoutOffsets (E : TextEnv) (hE : ∀ s : Style, E.font s.withoutOffsets = E.font s)
    (root : Font) (L : List Line) :
    pageHeight E root (L.map itemsWithoutOffsets) = pageHeight E root L :=
  (inline_moved E hE ⟨0, .auto, (.horizontalTb, .ltr)⟩ .left root L 0).2.2

theorem Ghost.pos_withoutOffsets (E : TextEnv) (hE : ∀ s : Style, E.font s.withoutOffsets = E.font s)
    (w : ℚ) (root : Font) (G G' : Ghost) (h : G'.erase = G.erase.withoutOffsets) :
    G'.pos E w root = G.pos E w root := by
  rw [← G'.pos_erase, h, ← G.pos_erase]
  simp only [Ghost.pos, Ghost.withoutOffsets, advance_withoutOffsets, ctx_withoutOffsets E hE]

theorem Ghost.corner_withoutOffsets (E : TextEnv) (hE : ∀ s : Style, E.font s.withoutOffsets = E.font s)
    (w : ℚ) (root : Font) (G G' : Ghost) (h : G'.erase = G.erase.withoutOffsets) (st : Style) :
    G'.corner E w root st = G.corner E w root st := by
  have hd : G'.done = G.done.map itemsWithoutOffsets := congrArg Ghost.done h
  unfold Ghost.corner
  rw [G.pos_withoutOffsets E hE w root G' h, hd, pageHeight_withoutOffsets E hE]

mutual
theorem InlineLevelBox.found_withoutOffsets (E : TextEnv)
    (hE : ∀ s : Style, E.font s.withoutOffsets = E.font s) (w : ℚ) (root : Font) (rank : Nat) :
    ∀ (b : InlineLevelBox) (G G' : Ghost), G'.erase = G.erase.withoutOffsets →
    b.withoutOffsets.found E w root rank G' = b.found E w root rank G
  | .inlineBox st f l children, G, G', h => by
    simp only [InlineLevelBox.withoutOffsets, InlineLevelBox.found]
    refine inlineFound_withoutOffsets E hE w root rank children _ _ ?_
    have h1 : G'.done = G.done.map itemsWithoutOffsets := congrArg Ghost.done h
    have h2 : G'.stack.map GBox.erase = (G.stack.map GBox.erase).map GBox.withoutOffsets :=
      congrArg Ghost.stack h
    have h3 : G'.cur = itemsWithoutOffsets G.cur := congrArg Ghost.cur h
    simp only [Ghost.start, Ghost.erase, Ghost.withoutOffsets, h1, List.map_cons, h2, h3]
    rfl
  | .textRun .., _, _, _ => rfl
  | .outOfFlowAbsolutelyPositionedBox st c, G, G', h => by
    simp only [InlineLevelBox.withoutOffsets, InlineLevelBox.found,
      G.corner_withoutOffsets E hE w root G' h]
  | .outOfFlowFloatBox _ _, _, _, _ => rfl

theorem inlineFound_withoutOffsets (E : TextEnv)
    (hE : ∀ s : Style, E.font s.withoutOffsets = E.font s) (w : ℚ) (root : Font) (rank : Nat) :
    ∀ (bs : List InlineLevelBox) (G G' : Ghost), G'.erase = G.erase.withoutOffsets →
    inlineFound E w root rank (inlineWithoutOffsets bs) G' = inlineFound E w root rank bs G
  | [], _, _, _ => rfl
  | b :: bs, G, G', h => by
    simp only [inlineWithoutOffsets, inlineFound]
    rw [b.found_withoutOffsets E hE w root rank (G.setRem bs) (G'.setRem (inlineWithoutOffsets bs)) h,
      inlineFound_withoutOffsets E hE w root rank bs
        ((G.setRem bs).extend (b.linesOf E w (G.pos E w root))) _ ?_]
    rw [Ghost.extend_erase, Ghost.extend_erase, Ghost.extend_withoutOffsets,
      b.linesOf_withoutOffsets, G.pos_withoutOffsets E hE w root G' h]
    have : (G'.setRem (inlineWithoutOffsets bs)).erase = (G.setRem bs).erase.withoutOffsets := h
    rw [this]
end

/-- C44 in inline content, as one would expect it: with offsets, all parts of all boxes are
moved by what their offsets say and everything else is the same. -/
def C44_full : Prop :=
  ∀ (E : TextEnv) (st : Style) (boxes : List InlineLevelBox) (cb : ContainingBlock) (rank : Nat)
    (abs : List AbsFragment), (∀ s : Style, E.font s.withoutOffsets = E.font s) → inlineAbsOk boxes →
    ∃ r' abs' r abs'', ifcLayout E st (inlineWithoutOffsets boxes) cb rank abs = .ok (r', abs') ∧
      ifcLayout E st boxes cb rank abs = .ok (r, abs'') ∧
      List.Forall₂ (MovedLine cb true) r'.fragments r.fragments

/-- C44 in inline content: with offsets, the lines have the same places, sizes and contents
as without, the paragraph has the same height, and boxes are moved as their offsets say,
with what is in them; nothing else is moved, and absolutely positioned boxes have the same
static positions.  Missing for `C44_full` (which is false): on
lines after the first, the parts of boxes that started on an earlier line do not get the
horizontal shift. -/
theorem C44_inline_partial (E : TextEnv) (st : Style) (boxes : List InlineLevelBox)
    (cb : ContainingBlock) (rank : Nat) (abs : List AbsFragment)
    (hE : ∀ s : Style, E.font s.withoutOffsets = E.font s) (h : inlineAbsOk boxes) :
    ∃ first' rest' first rest size margins out,
      ifcLayout E st (inlineWithoutOffsets boxes) cb rank abs =
        .ok (⟨first' :: rest', size, margins⟩, out) ∧
      ifcLayout E st boxes cb rank abs = .ok (⟨first :: rest, size, margins⟩, out) ∧
      MovedLine cb true first' first ∧ List.Forall₂ (MovedLine cb false) rest' rest := by
  obtain ⟨L, new, h1, ⟨_, h2, hn⟩, h3⟩ := ifcLayout_lines E st boxes cb rank abs h
  obtain ⟨L', new', h1', ⟨_, h2', hn'⟩, h3'⟩ := ifcLayout_lines E st _ cb rank abs
    (inlineAbsOk_withoutOffsets boxes h)
  rw [inlineLines_withoutOffsets, ← h2] at h2'
  rw [inlineFound_withoutOffsets E hE cb.inlineSize (E.font st) rank boxes ⟨[], [], [], boxes⟩ _ rfl,
    ← hn] at hn'
  subst h2' hn'
  have hf : firstLineFirst L := h2 ▸ inlineLines_first E cb.inlineSize boxes 0
  obtain ⟨m1, m2, m3⟩ := inline_moved E hE cb (st.val .textAlign) (E.font st) L 0
  rw [m3] at h3'
  obtain ⟨l, L, rfl⟩ := List.exists_cons_of_ne_nil h1.ne_nil
  rw [List.map_cons] at h3' m1 m2
  simp only [placeLines] at h3 h3' m1 m2
  cases m2 with
  | cons _ m2 => exact ⟨_, _, _, _, _, _, _, h3', h3, m1 hf _ rfl _ rfl, m2⟩

/-- style for examples: `position: relative; left: 5; top: 1` -/
def shiftedStyle : Style :=
  ((plainStyle.set .position .relative).set .left (.length 5)).set .top (.length 1)

/-- `x<span>aa bb</span>`, the span shifted by 5 to the right and 1 down -/
def shiftedBoxes : List InlineLevelBox :=
  [.textRun plainStyle "x".toList ⟨16, 12, 4, 4, GCtx.new⟩,
   .inlineBox shiftedStyle true true
    [.textRun shiftedStyle "aa bb".toList ⟨16, 12, 4, 4, GCtx.new⟩],
   .textRun plainStyle "y".toList ⟨16, 12, 4, 4, GCtx.new⟩]

/-- the corner of a fragment, and the shift its style asks for if it is a box -/
def cornerAndShift (f : Fragment) : Vec2 Length × Vec2 Length :=
  match f with
  | .box st g _ _ => (g.contentRect.startCorner, relativeShift st 30 0)
  | f => (f.origin, ⟨0, 0⟩)

/-- the corners of what is on the lines, with the shifts -/
def lineCorners (r : Except Panic (FlowChildren × List AbsFragment)) :
    List (List (Vec2 Length × Vec2 Length)) :=
  match r with
  | .ok (r, _) => r.fragments.map fun l => l.children.map cornerAndShift
  | .error _ => []

/-- containing block for the witness -/
def narrowCb : ContainingBlock := ⟨30, .auto, (.horizontalTb, .ltr)⟩

/-- without and with the offsets: on the second line, the horizontal shift is missing -/
theorem C44_witness :
    lineCorners (ifcLayout blockEnv plainStyle (inlineWithoutOffsets shiftedBoxes) narrowCb 0 []) =
      [[(⟨0, 8/5⟩, ⟨0, 0⟩), (⟨10, 8/5⟩, ⟨0, 0⟩)], [(⟨0, 8/5⟩, ⟨0, 0⟩), (⟨20, 8/5⟩, ⟨0, 0⟩)]] ∧
    lineCorners (ifcLayout blockEnv plainStyle shiftedBoxes narrowCb 0 []) =
      [[(⟨0, 8/5⟩, ⟨0, 0⟩), (⟨15, 13/5⟩, ⟨5, 1⟩)], [(⟨0, 13/5⟩, ⟨5, 1⟩), (⟨20, 8/5⟩, ⟨0, 0⟩)]] := by
  constructor <;> decide +kernel

/-- C44 is false as stated: of a shifted inline box on two lines, the part on the second line
is not moved to the right. -/
theorem C44_full_false : ¬ C44_full := by
  intro h
  obtain ⟨r', _, r, _, h1, h2, h3⟩ := h blockEnv plainStyle shiftedBoxes narrowCb 0 []
    (fun _ => rfl) ⟨trivial, by simp [InlineLevelBox.absOk, inlineAbsOk], trivial, trivial⟩
  obtain ⟨w1, w2⟩ := C44_witness
  rw [h1] at w1
  rw [h2] at w2
  simp only [lineCorners] at w1 w2
  clear h1 h2
  generalize r'.fragments = F' at w1 h3
  generalize r.fragments = F at w2 h3
  cases h3 with
  | nil => simp at w1
  | cons _ h3 =>
    cases h3 with
    | nil => simp at w1
    | @cons l' l ls' ls h4 h5 =>
      simp only [List.map_cons, List.cons.injEq] at w1 w2
      have e1 := w1.2.1
      have e2 := w2.2.1
      clear w1 w2 h5
      cases l' with
      | box => exact h4
      | text => exact h4
      | anonymous rr' cs' mm' =>
        cases l with
        | box => exact h4
        | text => exact h4
        | anonymous rr cs mm =>
          simp only [Fragment.children] at e1 e2
          have h6 := h4.2.2
          clear h4
          cases h6 with
          | nil => simp at e1
          | text _ =>
            simp only [List.map_cons, List.cons.injEq, cornerAndShift, Fragment.origin] at e1 e2
            have := e1.1.symm.trans e2.1
            simp at this
          | @box style g m ch' ch fs' fs d hb hi _ _ =>
            simp only [List.map_cons, List.cons.injEq, cornerAndShift, BoxGeom.moveBy, Prod.mk.injEq] at e1 e2
            obtain ⟨⟨c1, _⟩, _⟩ := e1
            obtain ⟨⟨c2, c3⟩, _⟩ := e2
            have hi' : d.inline = (relativeShift style 30 0).inline := by
              rcases hi with hi | hi
              · exact hi
              · cases hi.1
            rw [c3] at hi'
            rw [c1, hi'] at c2
            simp at c2

/-- the positions and the height of three blocks of height 10, of which the second is shifted:
`position: relative; left: 5; right: 7; bottom: 50%` -/
example : (match layoutBlockLevelChildren (boxLayout blockEnv 1)
    [emptyBlock (plainStyle.set .height (.length 10)),
     emptyBlock (((((plainStyle.set .height (.length 10)).set .position .relative).set .left
      (.length 5)).set .right (.length 7)).set .bottom (.percentage (1/2))),
     emptyBlock (plainStyle.set .height (.length 10))] blockCb 0 [] false true with
    | .ok (fc, _) => some (fc.fragments.map Fragment.origin, fc.blockSize)
    | .error _ => none) = some ([⟨0, 0⟩, ⟨5, 5⟩, ⟨0, 20⟩], 30) := by decide +kernel

example : InFlowBox (plainStyle.set .left (.length 5)) (emptyBlock (plainStyle.set .left (.length 5))) ∧
    blockCb.standard := ⟨.same _, rfl⟩

end Sinab
