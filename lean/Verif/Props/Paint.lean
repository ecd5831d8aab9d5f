import Verif.Spec.Paint
import Verif.Props.Units
import Verif.Props.Positioned
import Verif.Lemmas.Upright

/-! Painting (C55, C56, C57, C58). -/

namespace Sinab

/-! ## Lemmas -/

theorem Trace.andThen_ok {a b : Trace} {as bs : List DrawCall} (ha : a = ⟨as, none⟩)
    (hb : b = ⟨bs, none⟩) : a.andThen b = ⟨as ++ bs, none⟩ := by
  subst ha hb
  rfl

theorem Trace.andThen_calls (as : List DrawCall) (b : Trace) :
    Trace.andThen ⟨as, none⟩ b = ⟨as ++ b.calls, b.panic⟩ := rfl

theorem onPage_ok (r : Rect Length) (cb : PRect Length) :
    r.onPage (.horizontalTb, .ltr) cb = .ok ⟨⟨r.startCorner.inline + cb.topLeft.x,
      r.startCorner.block + cb.topLeft.y⟩, ⟨r.size.inline, r.size.block⟩⟩ := rfl

/-- the visible decoration of one side -/
def edgeCall (st : Style) (g : BoxGeom) (o : PVec2 Length) (s : Side) : Option DrawCall :=
  if 0 < g.edge s ∧ st.edgeStyle s ≠ .none then
    some (.line ((g.strip o s).midline s) (st.resolved (st.edgeColor s)) (g.edge s) (st.edgeStyle s))
  else none

/-- the background -/
def backgroundCall (st : Style) (g : BoxGeom) (o : PVec2 Length) : List DrawCall :=
  if 0 < (st.resolved (st.val .backgroundColor)).a then
    [.rect (g.borderArea o).left (g.borderArea o).top
      ((g.borderArea o).right - (g.borderArea o).left) ((g.borderArea o).bottom - (g.borderArea o).top)
      (st.resolved (st.val .backgroundColor))]
  else []

/-- what a fragment paints itself -/
def ownCalls (o : PVec2 Length) : Fragment → List DrawCall
  | .box st g _ _ =>
    [.bbox (g.marginArea o).left (g.marginArea o).top
      ((g.marginArea o).right - (g.marginArea o).left) ((g.marginArea o).bottom - (g.marginArea o).top)] ++
    (backgroundCall st g o ++ [Side.top, .right, .bottom, .left].filterMap (edgeCall st g o))
  | .anonymous r _ _ =>
    [.bbox (r.startCorner.inline + o.x) (r.startCorner.block + o.y) r.size.inline r.size.block]
  | .text st r t =>
    [.bbox (r.startCorner.inline + o.x) (r.startCorner.block + o.y) r.size.inline r.size.block,
      .text (String.ofList t.glyphs) (r.startCorner.inline + o.x)
        (r.startCorner.block + o.y + t.font.ascent) t.font.gc (st.val .color)]

theorem toRgba_resolved (st : Style) (c : CssColor) : st.toRgba c = st.resolved c := by
  cases c <;> rfl

/-- the physical border and padding rectangles of a box -/
def physBorder (g : BoxGeom) (cb : PRect Length) : PRect Length :=
  ⟨⟨g.borderRect.startCorner.inline + cb.topLeft.x, g.borderRect.startCorner.block + cb.topLeft.y⟩,
    ⟨g.borderRect.size.inline, g.borderRect.size.block⟩⟩

/-- the physical border and padding rectangles of a box -/
def physPadding (g : BoxGeom) (cb : PRect Length) : PRect Length :=
  ⟨⟨g.paddingRect.startCorner.inline + cb.topLeft.x, g.paddingRect.startCorner.block + cb.topLeft.y⟩,
    ⟨g.paddingRect.size.inline, g.paddingRect.size.block⟩⟩

theorem paintBackground_eq (st : Style) (g : BoxGeom) (cb : PRect Length) :
    paintBackground st (physBorder g cb) = ⟨backgroundCall st g cb.topLeft, none⟩ := by
  unfold paintBackground backgroundCall
  simp only [toRgba_resolved, gt_iff_lt]
  split
  · simp only [Trace.call, Trace.mk.injEq, and_true, List.cons.injEq, DrawCall.rect.injEq]
    simp only [physBorder, BoxGeom.borderArea, BoxGeom.borderRect, Rect.inflate, Sides.inlineSum,
      Sides.blockSum]
    refine ⟨?_, ?_, ?_, ?_⟩ <;> ring
  · rfl

theorem edge_width (g : BoxGeom) (cb : PRect Length) :
    ((physPadding g cb).topLeft.y - (physBorder g cb).topLeft.y = g.edge .top) ∧
    ((physBorder g cb).topLeft.x + (physBorder g cb).size.x - (physPadding g cb).topLeft.x -
      (physPadding g cb).size.x = g.edge .right) ∧
    ((physBorder g cb).topLeft.y + (physBorder g cb).size.y - (physPadding g cb).topLeft.y -
      (physPadding g cb).size.y = g.edge .bottom) ∧
    ((physPadding g cb).topLeft.x - (physBorder g cb).topLeft.x = g.edge .left) := by
  simp only [physBorder, physPadding, BoxGeom.edge, BoxGeom.borderRect, BoxGeom.paddingRect, Rect.inflate,
    Sides.inlineSum, Sides.blockSum]
  refine ⟨?_, ?_, ?_, ?_⟩ <;> ring

theorem paintTop_eq (st : Style) (g : BoxGeom) (cb : PRect Length) :
    paintTop st (physBorder g cb) (physPadding g cb) =
      ⟨(edgeCall st g cb.topLeft .top).toList, none⟩ := by
  unfold paintTop
  simp only [(edge_width g cb).1, gt_iff_lt, toRgba_resolved]
  by_cases h : 0 < g.edge .top ∧ st.val .borderTopStyle ≠ LineStyle.none
  · have he : edgeCall st g cb.topLeft .top = some _ := if_pos h
    rw [if_pos h, he]
    simp only [Style.edgeStyle, Style.edgeColor]
    simp only [Trace.call, Trace.mk.injEq, and_true, Option.toList, List.cons.injEq,
      DrawCall.line.injEq, Area.midline, Prod.mk.injEq]
    simp only [physBorder, BoxGeom.strip, BoxGeom.borderArea, BoxGeom.borderRect, Rect.inflate,
      Sides.inlineSum, Sides.blockSum, BoxGeom.edge]
    refine ⟨⟨?_, ?_⟩, ?_, ?_⟩ <;> ring
  · have he : edgeCall st g cb.topLeft .top = none := if_neg h
    rw [if_neg h, he]
    rfl

theorem paintRight_eq (st : Style) (g : BoxGeom) (cb : PRect Length) :
    paintRight st (physBorder g cb) (physPadding g cb) =
      ⟨(edgeCall st g cb.topLeft .right).toList, none⟩ := by
  unfold paintRight
  simp only [(edge_width g cb).2.1, gt_iff_lt, toRgba_resolved]
  by_cases h : 0 < g.edge .right ∧ st.val .borderRightStyle ≠ LineStyle.none
  · have he : edgeCall st g cb.topLeft .right = some _ := if_pos h
    rw [if_pos h, he]
    simp only [Style.edgeStyle, Style.edgeColor]
    simp only [Trace.call, Trace.mk.injEq, and_true, Option.toList, List.cons.injEq,
      DrawCall.line.injEq, Area.midline, Prod.mk.injEq]
    simp only [physBorder, BoxGeom.strip, BoxGeom.borderArea, BoxGeom.borderRect, Rect.inflate,
      Sides.inlineSum, Sides.blockSum, BoxGeom.edge]
    refine ⟨⟨?_, ?_⟩, ?_, ?_⟩ <;> ring
  · have he : edgeCall st g cb.topLeft .right = none := if_neg h
    rw [if_neg h, he]
    rfl

theorem paintBottom_eq (st : Style) (g : BoxGeom) (cb : PRect Length) :
    paintBottom st (physBorder g cb) (physPadding g cb) =
      ⟨(edgeCall st g cb.topLeft .bottom).toList, none⟩ := by
  unfold paintBottom
  simp only [(edge_width g cb).2.2.1, gt_iff_lt, toRgba_resolved]
  by_cases h : 0 < g.edge .bottom ∧ st.val .borderBottomStyle ≠ LineStyle.none
  · have he : edgeCall st g cb.topLeft .bottom = some _ := if_pos h
    rw [if_pos h, he]
    simp only [Style.edgeStyle, Style.edgeColor]
    simp only [Trace.call, Trace.mk.injEq, and_true, Option.toList, List.cons.injEq,
      DrawCall.line.injEq, Area.midline, Prod.mk.injEq]
    simp only [physBorder, BoxGeom.strip, BoxGeom.borderArea, BoxGeom.borderRect, Rect.inflate,
      Sides.inlineSum, Sides.blockSum, BoxGeom.edge]
    refine ⟨⟨?_, ?_⟩, ?_, ?_⟩ <;> ring
  · have he : edgeCall st g cb.topLeft .bottom = none := if_neg h
    rw [if_neg h, he]
    rfl

theorem paintLeft_eq (st : Style) (g : BoxGeom) (cb : PRect Length) :
    paintLeft st (physBorder g cb) (physPadding g cb) =
      ⟨(edgeCall st g cb.topLeft .left).toList, none⟩ := by
  unfold paintLeft
  simp only [(edge_width g cb).2.2.2, gt_iff_lt, toRgba_resolved]
  by_cases h : 0 < g.edge .left ∧ st.val .borderLeftStyle ≠ LineStyle.none
  · have he : edgeCall st g cb.topLeft .left = some _ := if_pos h
    rw [if_pos h, he]
    simp only [Style.edgeStyle, Style.edgeColor]
    simp only [Trace.call, Trace.mk.injEq, and_true, Option.toList, List.cons.injEq,
      DrawCall.line.injEq, Area.midline, Prod.mk.injEq]
    simp only [physBorder, BoxGeom.strip, BoxGeom.borderArea, BoxGeom.borderRect, Rect.inflate,
      Sides.inlineSum, Sides.blockSum, BoxGeom.edge]
    refine ⟨⟨?_, ?_⟩, ?_, ?_⟩ <;> ring
  · have he : edgeCall st g cb.topLeft .left = none := if_neg h
    rw [if_neg h, he]
    rfl

theorem paint_box (cb : PRect Length) (st : Style) (g : BoxGeom) (m : CollapsedBlockMargins)
    (cs : List Fragment) : (Fragment.box st g m cs).paintOnto cb =
      Trace.andThen ⟨ownCalls cb.topLeft (.box st g m cs), none⟩
        (paintAll ⟨(Fragment.box st g m cs).offset + cb.topLeft,
          ⟨g.contentRect.size.inline, g.contentRect.size.block⟩⟩ cs) := by
  have hw : st.writingMode = (.horizontalTb, .ltr) := rfl
  have hb : g.borderRect.onPage (.horizontalTb, .ltr) cb = .ok (physBorder g cb) := rfl
  have hp : g.paddingRect.onPage (.horizontalTb, .ltr) cb = .ok (physPadding g cb) := rfl
  rw [Fragment.paintOnto, hw, hb, hp, onPage_ok, onPage_ok]
  simp only [Trace.after, paintBackground_eq, paintTop_eq, paintRight_eq, paintBottom_eq, paintLeft_eq]
  have hm : recordBox ⟨⟨g.marginRect.startCorner.inline + cb.topLeft.x,
      g.marginRect.startCorner.block + cb.topLeft.y⟩, ⟨g.marginRect.size.inline, g.marginRect.size.block⟩⟩ =
      ⟨[.bbox (g.marginArea cb.topLeft).left (g.marginArea cb.topLeft).top
        ((g.marginArea cb.topLeft).right - (g.marginArea cb.topLeft).left)
        ((g.marginArea cb.topLeft).bottom - (g.marginArea cb.topLeft).top)], none⟩ := by
    simp only [recordBox, Trace.call, Trace.mk.injEq, and_true, List.cons.injEq, DrawCall.bbox.injEq,
      BoxGeom.marginArea, BoxGeom.borderArea, BoxGeom.marginRect, Rect.inflate, Sides.inlineSum,
      Sides.blockSum]
    refine ⟨?_, ?_, ?_, ?_⟩ <;> ring
  rw [hm]
  simp only [Trace.andThen_calls, ownCalls, Trace.mk.injEq, List.append_assoc]
  refine ⟨?_, rfl⟩
  congr 2
  simp only [List.filterMap_cons, List.filterMap_nil]
  cases edgeCall st g cb.topLeft .top <;> cases edgeCall st g cb.topLeft .right <;>
    cases edgeCall st g cb.topLeft .bottom <;> cases edgeCall st g cb.topLeft .left <;> rfl

theorem paint_anonymous (cb : PRect Length) (r : Rect Length) (cs : List Fragment) :
    (Fragment.anonymous r cs (.horizontalTb, .ltr)).paintOnto cb =
      Trace.andThen ⟨ownCalls cb.topLeft (.anonymous r cs (.horizontalTb, .ltr)), none⟩
        (paintAll ⟨(Fragment.anonymous r cs (.horizontalTb, .ltr)).offset + cb.topLeft,
          ⟨r.size.inline, r.size.block⟩⟩ cs) := rfl

theorem paint_text (cb : PRect Length) (st : Style) (r : Rect Length) (t : ShapedSegment) :
    (Fragment.text st r t).paintOnto cb = ⟨ownCalls cb.topLeft (.text st r t), none⟩ := rfl

theorem pvec2_add (a b : PVec2 Length) : a + b = ⟨a.x + b.x, a.y + b.y⟩ := rfl

theorem sumOffsets_concat (anc : List Fragment) (f : Fragment) :
    sumOffsets (anc ++ [f]) = sumOffsets anc + f.offset := by
  induction anc with
  | nil => simp [sumOffsets, pvec2_add]
  | cons a anc ih =>
    rw [List.cons_append, sumOffsets, ih, sumOffsets]
    simp only [pvec2_add, PVec2.mk.injEq]
    constructor <;> ring

mutual

theorem paintOnto_own (o : PVec2 Length) : ∀ (f : Fragment) (anc : List Fragment) (cb : PRect Length),
    f.upright → cb.topLeft = o + sumOffsets anc →
    f.paintOnto cb = ⟨(f.places anc).flatMap fun p => ownCalls (o + sumOffsets p.1) p.2, none⟩
  | .box st g m cs, anc, cb, h, e => by
    rw [paint_box, paintAll_own o cs (anc ++ [.box st g m cs]) _ h (by
      rw [sumOffsets_concat, e]
      simp only [pvec2_add, PVec2.mk.injEq]
      constructor <;> ring), Trace.andThen_calls, Fragment.places, List.flatMap_cons, e]
  | .anonymous r cs mode, anc, cb, h, e => by
    obtain ⟨rfl, h⟩ := h
    rw [paint_anonymous, paintAll_own o cs (anc ++ [.anonymous r cs (.horizontalTb, .ltr)]) _ h (by
      rw [sumOffsets_concat, e]
      simp only [pvec2_add, PVec2.mk.injEq]
      constructor <;> ring), Trace.andThen_calls, Fragment.places, List.flatMap_cons, e]
  | .text st r t, anc, cb, h, e => by
    rw [paint_text, Fragment.places, e]
    simp

theorem paintAll_own (o : PVec2 Length) : ∀ (fs anc : List Fragment) (cb : PRect Length),
    uprightAll fs → cb.topLeft = o + sumOffsets anc →
    paintAll cb fs = ⟨(placesAll anc fs).flatMap fun p => ownCalls (o + sumOffsets p.1) p.2, none⟩
  | [], _, _, _, _ => by simp [paintAll, placesAll, Trace.done]
  | f :: fs, anc, cb, h, e => by
    rw [paintAll, paintOnto_own o f anc cb h.1 e, paintAll_own o fs anc cb h.2 e, Trace.andThen_calls,
      placesAll, List.flatMap_append]

end

theorem alone_upright {f : Fragment} (h : f.upright) : f.alone.upright := by
  cases f with
  | box => exact trivial
  | anonymous => exact ⟨h.1, trivial⟩
  | text => exact trivial

theorem alone_own {f : Fragment} (h : f.upright) (o : PVec2 Length) :
    f.alone.paintOnto (blockAt o) = ⟨ownCalls o f, none⟩ := by
  have := paintOnto_own o f.alone [] (blockAt o) (alone_upright h) (by
    simp [blockAt, sumOffsets, pvec2_add])
  rw [this]
  have ho : o + sumOffsets [] = o := by simp [sumOffsets, pvec2_add]
  cases f <;> simp [Fragment.alone, Fragment.places, placesAll, ownCalls, ho]

mutual

theorem places_upright : ∀ (f : Fragment) (anc : List Fragment), f.upright →
    ∀ p ∈ f.places anc, p.2.upright
  | .box st g m cs, anc, h, p, hp => by
    rcases List.mem_cons.1 hp with rfl | hp
    · exact h
    · exact placesAll_upright cs _ h p hp
  | .anonymous r cs mode, anc, h, p, hp => by
    rcases List.mem_cons.1 hp with rfl | hp
    · exact h
    · exact placesAll_upright cs _ h.2 p hp
  | .text st r t, anc, h, p, hp => by
    rw [Fragment.places, List.mem_singleton] at hp
    subst hp
    exact h

theorem placesAll_upright : ∀ (fs anc : List Fragment), uprightAll fs →
    ∀ p ∈ placesAll anc fs, p.2.upright
  | [], _, _, p, hp => by simp [placesAll] at hp
  | f :: fs, anc, h, p, hp => by
    rw [placesAll, List.mem_append] at hp
    rcases hp with hp | hp
    · exact places_upright f anc h.1 p hp
    · exact placesAll_upright fs anc h.2 p hp

end

/-! ## C55: order and completeness -/

/-- C55: painting makes the calls of every fragment (painted without its children), once, in
tree order, each with the sum of the offsets of the fragments around it as origin. -/
theorem C55_tree_order (cb : PRect Length) (fs : List Fragment) (h : uprightAll fs) :
    (paintAll cb fs).panic = none ∧
    (paintAll cb fs).calls = (placesAll [] fs).flatMap fun p =>
      (p.2.alone.paintOnto (blockAt (cb.topLeft + sumOffsets p.1))).calls := by
  rw [paintAll_own cb.topLeft fs [] cb h (by simp [sumOffsets, pvec2_add])]
  refine ⟨rfl, ?_⟩
  refine List.flatMap_congr fun p hp => ?_
  rw [alone_own (placesAll_upright fs [] h p hp)]

/-- C55: a box records its margin area, then paints its background, then its borders, then its
content. -/
theorem C55_box (cb : PRect Length) (st : Style) (g : BoxGeom) (m : CollapsedBlockMargins)
    (cs : List Fragment) :
    ∃ background borders content,
      ((Fragment.box st g m cs).paintOnto cb).calls =
        .bbox (g.marginArea cb.topLeft).left (g.marginArea cb.topLeft).top
          ((g.marginArea cb.topLeft).right - (g.marginArea cb.topLeft).left)
          ((g.marginArea cb.topLeft).bottom - (g.marginArea cb.topLeft).top) ::
          (background ++ borders ++ content) ∧
      (∀ c ∈ background, c.isRect) ∧ background.length ≤ 1 ∧
      (∀ c ∈ borders, c.isLine) ∧ borders.length ≤ 4 ∧
      content = (paintAll ⟨(Fragment.box st g m cs).offset + cb.topLeft,
          ⟨g.contentRect.size.inline, g.contentRect.size.block⟩⟩ cs).calls := by
  rw [paint_box, Trace.andThen_calls]
  refine ⟨backgroundCall st g cb.topLeft,
    [Side.top, .right, .bottom, .left].filterMap (edgeCall st g cb.topLeft), _, ?_, ?_, ?_, ?_, ?_, rfl⟩
  · simp only [ownCalls, List.cons_append, List.nil_append, List.append_assoc]
  · unfold backgroundCall
    split <;> simp [DrawCall.isRect]
  · unfold backgroundCall
    split <;> simp
  · intro c hc
    obtain ⟨s, _, hs⟩ := List.mem_filterMap.1 hc
    unfold edgeCall at hs
    split at hs
    · cases hs
      rfl
    · cases hs
  · exact (List.length_filterMap_le _ _)

/-- C55: text is painted once, in its own font and colour. -/
theorem C55_text (cb : PRect Length) (st : Style) (r : Rect Length) (t : ShapedSegment) :
    ((Fragment.text st r t).paintOnto cb).panic = none ∧
    ((Fragment.text st r t).paintOnto cb).calls =
      [.bbox (cb.topLeft.x + r.startCorner.inline) (cb.topLeft.y + r.startCorner.block)
          r.size.inline r.size.block,
        .text (String.ofList t.glyphs) (cb.topLeft.x + r.startCorner.inline)
          (cb.topLeft.y + r.startCorner.block + t.font.ascent) t.font.gc (st.val .color)] := by
  rw [paint_text]
  simp only [ownCalls, add_comm, true_and]

/-- the text of a text fragment, with its font and colour -/
def Fragment.ownText : Fragment → Option (String × GCtx × RGBA)
  | .text st _ t => some (String.ofList t.glyphs, t.font.gc, st.val .color)
  | _ => none

theorem ownCalls_text (o : PVec2 Length) (f : Fragment) :
    (ownCalls o f).filterMap DrawCall.text? = f.ownText.toList := by
  cases f with
  | text st r t => rfl
  | anonymous r cs m => rfl
  | box st g m cs =>
    simp only [ownCalls, List.filterMap_append, List.filterMap_filterMap, Fragment.ownText,
      Option.toList]
    have h1 : (backgroundCall st g o).filterMap DrawCall.text? = [] := by
      unfold backgroundCall
      split <;> rfl
    have h2 : ∀ s, (edgeCall st g o s).bind DrawCall.text? = none := by
      intro s
      unfold edgeCall
      split <;> rfl
    rw [h1]
    simp [h2, DrawCall.text?]

/-- C55: the texts painted are the texts of the text fragments, in tree order. -/
theorem C55_texts (cb : PRect Length) (fs : List Fragment) (h : uprightAll fs) :
    (paintAll cb fs).calls.filterMap DrawCall.text? =
      (placesAll [] fs).filterMap fun p => p.2.ownText := by
  rw [paintAll_own cb.topLeft fs [] cb h (by simp [sumOffsets, pvec2_add])]
  simp only [List.filterMap_flatMap, ownCalls_text]
  induction placesAll [] fs with
  | nil => rfl
  | cons p ps ih =>
    rw [List.flatMap_cons, ih, List.filterMap_cons]
    cases p.2.ownText <;> rfl

/-! ## C56: positions -/

theorem ownCalls_move (o v : PVec2 Length) (f : Fragment) :
    ownCalls (o + v) f = (ownCalls o f).map (DrawCall.move v) := by
  cases f with
  | text st r t => simp [ownCalls, DrawCall.move, pvec2_add]; ring_nf; simp
  | anonymous r cs m => simp [ownCalls, DrawCall.move, pvec2_add]; ring_nf; simp
  | box st g m cs =>
    have hb : backgroundCall st g (o + v) = (backgroundCall st g o).map (DrawCall.move v) := by
      unfold backgroundCall
      split
      · simp only [List.map_cons, List.map_nil, DrawCall.move, BoxGeom.borderArea, pvec2_add,
          List.cons.injEq, DrawCall.rect.injEq, and_true]
        refine ⟨?_, ?_, ?_, ?_⟩ <;> ring
      · rfl
    have he : ∀ s, edgeCall st g (o + v) s = (edgeCall st g o s).map (DrawCall.move v) := by
      intro s
      unfold edgeCall
      split
      · cases s <;>
          simp only [Option.map_some, Option.some.injEq, DrawCall.move, DrawCall.line.injEq, and_true,
            Area.midline, BoxGeom.strip, BoxGeom.borderArea, pvec2_add, List.map_cons, List.map_nil,
            List.cons.injEq, Prod.mk.injEq] <;> refine ⟨⟨?_, ?_⟩, ?_, ?_⟩ <;> ring
      · rfl
    simp only [ownCalls, List.map_append, hb, List.map_filterMap]
    congr 1
    · simp only [List.map_cons, List.map_nil, DrawCall.move, BoxGeom.marginArea, BoxGeom.borderArea,
        pvec2_add, List.cons.injEq, DrawCall.bbox.injEq, and_true]
      refine ⟨?_, ?_, ?_, ?_⟩ <;> ring
    · congr 1
      refine List.filterMap_congr fun s _ => he s

/-- C56: moving the page origin moves everything painted by the same vector and changes
nothing else. -/
theorem C56_translate (v : PVec2 Length) (cb : PRect Length) (fs : List Fragment)
    (h : uprightAll fs) :
    (paintAll (cb.translate v) fs).panic = (paintAll cb fs).panic ∧
    (paintAll (cb.translate v) fs).calls = (paintAll cb fs).calls.map (DrawCall.move v) := by
  rw [paintAll_own cb.topLeft fs [] cb h (by simp [sumOffsets, pvec2_add]),
    paintAll_own (cb.topLeft + v) fs [] (cb.translate v) h (by
      simp [sumOffsets, pvec2_add, PRect.translate])]
  refine ⟨rfl, ?_⟩
  simp only [List.map_flatMap]
  refine List.flatMap_congr fun p _ => ?_
  rw [← ownCalls_move]
  congr 1
  simp only [pvec2_add, PVec2.mk.injEq]
  constructor <;> ring

/-- C56: every primitive is where its own fragment alone would put it on a page, moved by the
sum of the offsets of the fragments around it. -/
theorem C56_sum_of_offsets (size : PVec2 Length) (fs : List Fragment) (h : uprightAll fs) :
    (paintPage size fs).calls = (placesAll [] fs).flatMap fun p =>
      (paintPage size [p.2.alone]).calls.map (DrawCall.move (sumOffsets p.1)) := by
  have h1 : ∀ fs, uprightAll fs → (paintPage size fs).calls =
      (placesAll [] fs).flatMap fun p => ownCalls (sumOffsets p.1) p.2 := by
    intro fs h
    rw [paintPage, paintAll_own ⟨0, 0⟩ fs [] _ h (by simp [sumOffsets, pvec2_add])]
    simp [pvec2_add]
  rw [h1 fs h]
  refine List.flatMap_congr fun p hp => ?_
  have hu := placesAll_upright fs [] h p hp
  rw [h1 [p.2.alone] ⟨alone_upright hu, trivial⟩]
  have h2 : ∀ f : Fragment, (placesAll [] [f.alone]).flatMap
      (fun p => ownCalls (sumOffsets p.1) p.2) = ownCalls ⟨0, 0⟩ f := by
    intro f
    cases f <;> simp [placesAll, Fragment.alone, Fragment.places, ownCalls, sumOffsets]
  rw [h2, ← ownCalls_move]
  simp [pvec2_add]

/-! ## C57: decorations -/

/-- C57: a background is painted exactly if its colour is not fully transparent, and covers
exactly padding and border area. -/
theorem C57_background (o : PVec2 Length) (st : Style) (g : BoxGeom) (m : CollapsedBlockMargins) :
    ((Fragment.box st g m []).paintOnto (blockAt o)).calls.filter DrawCall.isRect =
      if (st.resolved (st.val .backgroundColor)).a = 0 then []
      else [.rect (g.borderArea o).left (g.borderArea o).top
        ((g.borderArea o).right - (g.borderArea o).left)
        ((g.borderArea o).bottom - (g.borderArea o).top) (st.resolved (st.val .backgroundColor))] := by
  have := alone_own (f := .box st g m []) trivial o
  rw [Fragment.alone] at this
  rw [this]
  have he : ([Side.top, .right, .bottom, .left].filterMap (edgeCall st g o)).filter DrawCall.isRect = [] := by
    rw [List.filter_eq_nil_iff]
    intro c hc
    obtain ⟨s, _, hs⟩ := List.mem_filterMap.1 hc
    unfold edgeCall at hs
    split at hs
    · cases hs
      simp [DrawCall.isRect]
    · cases hs
  simp only [ownCalls, List.filter_append, he, List.append_nil]
  unfold backgroundCall
  by_cases h : (st.resolved (st.val .backgroundColor)).a = 0
  · simp [h, DrawCall.isRect]
  · rw [if_neg h, if_pos]
    · simp [DrawCall.isRect]
    · exact UInt8.pos_iff_ne_zero.2 h

/-- C57: the border lines painted are those of the edges with positive width and a style,
in clockwise order from the top, each in the middle of its strip, in its own width, style
and colour. -/
theorem C57_borders (o : PVec2 Length) (st : Style) (g : BoxGeom) (m : CollapsedBlockMargins) :
    ((Fragment.box st g m []).paintOnto (blockAt o)).calls.filter DrawCall.isLine =
      ([Side.top, .right, .bottom, .left].filter fun s => 0 < g.edge s ∧ st.edgeStyle s ≠ .none).map
        fun s => .line ((g.strip o s).midline s) (st.resolved (st.edgeColor s)) (g.edge s)
          (st.edgeStyle s) := by
  have := alone_own (f := .box st g m []) trivial o
  rw [Fragment.alone] at this
  rw [this]
  have hb : (backgroundCall st g o).filter DrawCall.isLine = [] := by
    unfold backgroundCall
    split <;> simp [DrawCall.isLine]
  simp only [ownCalls, List.filter_append, hb, List.nil_append]
  have : ∀ l : List Side, (l.filterMap (edgeCall st g o)).filter DrawCall.isLine =
      (l.filter fun s => 0 < g.edge s ∧ st.edgeStyle s ≠ .none).map
        fun s => .line ((g.strip o s).midline s) (st.resolved (st.edgeColor s)) (g.edge s)
          (st.edgeStyle s) := by
    intro l
    induction l with
    | nil => rfl
    | cons s l ih =>
      by_cases h : 0 < g.edge s ∧ st.edgeStyle s ≠ .none
      · have he : edgeCall st g o s = some _ := if_pos h
        rw [List.filterMap_cons, he, List.filter_cons_of_pos rfl, ih,
          List.filter_cons_of_pos (by simpa using h), List.map_cons]
      · have he : edgeCall st g o s = none := if_neg h
        rw [List.filterMap_cons, he, List.filter_cons_of_neg (by simpa using h)]
        exact ih
  rw [this]
  simp [DrawCall.isLine]

/-- C57: a line in the middle of a strip that is as wide as the strip stays in the strip,
reaches its corners (unless it has no length), and the strip is inside the border area. -/
theorem C57_inside (o : PVec2 Length) (g : BoxGeom) (hg : g.NonNeg) (s : Side) (c : RGBA)
    (ls : LineStyle) :
    (∀ p ∈ (DrawCall.line ((g.strip o s).midline s) c (g.edge s) ls).extent, (g.strip o s).Has p) ∧
    (∀ p q, (g.strip o s).midline s = [p, q] → p ≠ q → ∀ r ∈ (g.strip o s).corners,
      r ∈ (DrawCall.line ((g.strip o s).midline s) c (g.edge s) ls).extent) ∧
    (∀ p, (g.strip o s).Has p → (g.borderArea o).Has p) := by
  obtain ⟨⟨h1, h2, h3, h4⟩, ⟨h5, h6, h7, h8⟩, h9, h10⟩ := hg
  refine ⟨?_, ?_, ?_⟩
  · intro p hp
    cases s <;> simp only [Area.midline, DrawCall.extent] at hp <;> split at hp <;>
      (try split at hp) <;>
      simp only [List.mem_cons, List.not_mem_nil, or_false, Prod.mk.injEq, not_and,
        BoxGeom.strip, BoxGeom.borderArea, BoxGeom.edge, Area.Has] at * <;>
      (try rcases hp with rfl | rfl | rfl | rfl) <;>
      (try (refine ⟨?_, ?_, ?_, ?_⟩ <;> simp only [] <;> linarith)) <;>
      (exfalso; simp_all)
  · intro p q hpq hne r hr
    rw [hpq, DrawCall.extent, if_neg hne]
    cases s <;> simp only [Area.midline, List.cons.injEq, and_true] at hpq <;> obtain ⟨rfl, rfl⟩ := hpq
    · rw [if_pos rfl]
      simp only [Area.corners, List.mem_cons, List.not_mem_nil, or_false] at hr ⊢
      simp only [BoxGeom.strip, BoxGeom.edge] at hr ⊢
      rcases hr with rfl | rfl | rfl | rfl <;> simp only [Prod.mk.injEq, true_and]
      · left; ring
      · right; right; left; ring
      · right; left; ring
      · right; right; right; ring
    · rw [if_neg (by intro h; exact hne (by rw [Prod.mk.injEq]; exact ⟨rfl, h⟩))]
      simp only [Area.corners, List.mem_cons, List.not_mem_nil, or_false] at hr ⊢
      simp only [BoxGeom.strip, BoxGeom.edge] at hr ⊢
      rcases hr with rfl | rfl | rfl | rfl <;> simp only [Prod.mk.injEq, and_true]
      · left; ring
      · right; left; ring
      · right; right; left; ring
      · right; right; right; ring
    · rw [if_pos rfl]
      simp only [Area.corners, List.mem_cons, List.not_mem_nil, or_false] at hr ⊢
      simp only [BoxGeom.strip, BoxGeom.edge] at hr ⊢
      rcases hr with rfl | rfl | rfl | rfl <;> simp only [Prod.mk.injEq, true_and]
      · right; right; left; ring
      · left; ring
      · right; right; right; ring
      · right; left; ring
    · rw [if_neg (by intro h; exact hne (by rw [Prod.mk.injEq]; exact ⟨rfl, h⟩))]
      simp only [Area.corners, List.mem_cons, List.not_mem_nil, or_false] at hr ⊢
      simp only [BoxGeom.strip, BoxGeom.edge] at hr ⊢
      rcases hr with rfl | rfl | rfl | rfl <;> simp only [Prod.mk.injEq, and_true]
      · right; right; left; ring
      · right; right; right; ring
      · left; ring
      · right; left; ring
  · intro p hp
    cases s <;> simp only [BoxGeom.strip, BoxGeom.borderArea, BoxGeom.edge, Area.Has] at hp ⊢ <;>
      obtain ⟨e1, e2, e3, e4⟩ := hp <;> refine ⟨?_, ?_, ?_, ?_⟩ <;> linarith

/-! ## C58: extent -/

/-- the text of a fragment can be handed over to C -/
def Fragment.textOk (f : Fragment) : Prop := ∀ t, f.ownText = some t → '\x00' ∉ t.1.toList

theorem ownCalls_valid {f : Fragment} (h : f.textOk) (o : PVec2 Length) :
    ∀ c ∈ ownCalls o f, c.Valid := by
  intro c hc
  cases f with
  | text st r t =>
    simp only [ownCalls, List.mem_cons, List.not_mem_nil, or_false] at hc
    rcases hc with rfl | rfl
    · exact trivial
    · exact h _ rfl
  | anonymous r cs m =>
    simp only [ownCalls, List.mem_singleton] at hc
    subst hc
    exact trivial
  | box st g m cs =>
    simp only [ownCalls, List.mem_append, List.mem_singleton, List.mem_filterMap] at hc
    rcases hc with rfl | hc | ⟨s, _, hs⟩
    · exact trivial
    · unfold backgroundCall at hc
      split at hc
      · rw [List.mem_singleton] at hc
        subst hc
        exact trivial
      · simp at hc
    · unfold edgeCall at hs
      split at hs
      · cases hs
        exact trivial
      · cases hs

theorem page_own (size : PVec2 Length) (fs : List Fragment) (h : uprightAll fs) :
    paintPage size fs = ⟨(placesAll [] fs).flatMap fun p => ownCalls (sumOffsets p.1) p.2, none⟩ := by
  rw [paintPage, paintAll_own ⟨0, 0⟩ fs [] _ h (by simp [sumOffsets, pvec2_add])]
  simp [pvec2_add]

theorem page_valid (size : PVec2 Length) (fs : List Fragment) (h : uprightAll fs)
    (ht : ∀ p ∈ placesAll [] fs, p.2.textOk) : ∀ c ∈ (paintPage size fs).calls, c.Valid := by
  rw [page_own size fs h]
  intro c hc
  obtain ⟨p, hp, hc⟩ := List.mem_flatMap.1 hc
  exact ownCalls_valid (ht p hp) _ c hc

theorem BBox.has_between {b : BBox} {y0 : ℚ} {p q r : ℚ × ℚ} (hp : b.Has (pxToIn y0 p))
    (hq : b.Has (pxToIn y0 q)) (h1 : (p.1 ≤ r.1 ∨ q.1 ≤ r.1) ∧ (r.1 ≤ p.1 ∨ r.1 ≤ q.1))
    (h2 : (p.2 ≤ r.2 ∨ q.2 ≤ r.2) ∧ (r.2 ≤ p.2 ∨ r.2 ≤ q.2)) : b.Has (pxToIn y0 r) := by
  simp only [BBox.Has, pxToIn] at *
  obtain ⟨a1, a2, a3, a4⟩ := hp
  obtain ⟨b1, b2, b3, b4⟩ := hq
  obtain ⟨c1, c2⟩ := h1
  obtain ⟨d1, d2⟩ := h2
  refine ⟨?_, ?_, ?_, ?_⟩
  · rcases c1 with c1 | c1 <;> linarith
  · rcases c2 with c2 | c2 <;> linarith
  · rcases d2 with d2 | d2 <;> linarith
  · rcases d1 with d1 | d1 <;> linarith

theorem recorded_mem {y0 : ℚ} {cs : List DrawCall} {x y w h : Length} (hc : .bbox x y w h ∈ cs) :
    pxToIn y0 (x, y) ∈ recorded y0 cs ∧ pxToIn y0 (x + w, y + h) ∈ recorded y0 cs := by
  unfold recorded
  constructor <;> exact List.mem_flatMap.2 ⟨_, hc, by simp [DrawCall.corners, pxToIn]⟩

/-- What R reports as the extent of a page. -/
def ReportedExtent (y0 : ℚ) (size : PVec2 Length) (fs : List Fragment) (e : Option BBox) : Prop :=
  ∃ d r, (RDev.new y0).execAll (paintPage size fs).calls = .ok d ∧ d.release = .ok r ∧ r.bbox = e

theorem extent_recorded {y0 : ℚ} {size : PVec2 Length} {fs : List Fragment} (h : uprightAll fs)
    (ht : ∀ p ∈ placesAll [] fs, p.2.textOk) {b : BBox} (hb : ReportedExtent y0 size fs (some b))
    {p : List Fragment × Fragment} (hp : p ∈ placesAll [] fs) {x y w hh : Length}
    (hc : .bbox x y w hh ∈ ownCalls (sumOffsets p.1) p.2) :
    b.Has (pxToIn y0 (x, y)) ∧ b.Has (pxToIn y0 (x + w, y + hh)) := by
  obtain ⟨d, r, h1, h2, h3⟩ := hb
  obtain ⟨d', r', h1', h2', _, h4⟩ := C02_bbox_hull y0 _ (page_valid size fs h ht)
  rw [h1] at h1'
  cases h1'
  rw [h2] at h2'
  cases h2'
  have hm : DrawCall.bbox x y w hh ∈ (paintPage size fs).calls := by
    rw [page_own size fs h]
    exact List.mem_flatMap.2 ⟨p, hp, hc⟩
  exact ⟨(h4 b h3).1 _ (recorded_mem hm).1, (h4 b h3).1 _ (recorded_mem hm).2⟩

/-- C58: painting a page succeeds and an extent is reported, unless the page is empty. -/
theorem C58_reported (y0 : ℚ) (size : PVec2 Length) (fs : List Fragment) (h : uprightAll fs)
    (ht : ∀ p ∈ placesAll [] fs, p.2.textOk) :
    ∃ e, ReportedExtent y0 size fs e ∧ (e = none ↔ fs = []) := by
  obtain ⟨d, r, h1, h2, h3, _⟩ := C02_bbox_hull y0 _ (page_valid size fs h ht)
  refine ⟨r.bbox, ⟨d, r, h1, h2, rfl⟩, h3.trans ?_⟩
  rw [page_own size fs h]
  cases fs with
  | nil => simp [placesAll, recorded]
  | cons f fs =>
    simp only [reduceCtorEq, iff_false]
    have : ∃ p ∈ placesAll [] (f :: fs), ∃ x y w hh, DrawCall.bbox x y w hh ∈
        ownCalls (sumOffsets p.1) p.2 := by
      refine ⟨([], f), ?_, ?_⟩
      · rw [placesAll]
        cases f <;> simp [Fragment.places]
      · cases f with
        | box st g m cs => exact ⟨_, _, _, _, List.mem_append_left _ (List.mem_singleton_self _)⟩
        | anonymous => exact ⟨_, _, _, _, List.mem_singleton_self _⟩
        | text => exact ⟨_, _, _, _, List.mem_cons_self⟩
    obtain ⟨p, hp, x, y, w, hh, hc⟩ := this
    exact List.ne_nil_of_mem (recorded_mem (List.mem_flatMap.2 ⟨p, hp, hc⟩)).1

/-- C58: the extent contains the margin box of every box on the page. -/
theorem C58_margin_boxes (y0 : ℚ) (size : PVec2 Length) (fs : List Fragment) (h : uprightAll fs)
    (ht : ∀ p ∈ placesAll [] fs, p.2.textOk) (b : BBox) (hb : ReportedExtent y0 size fs (some b))
    (anc : List Fragment) (st : Style) (g : BoxGeom) (m : CollapsedBlockMargins) (cs : List Fragment)
    (hp : (anc, .box st g m cs) ∈ placesAll [] fs) :
    ∀ p ∈ (g.marginArea (sumOffsets anc)).corners, b.Has (pxToIn y0 p) := by
  obtain ⟨h1, h2⟩ := extent_recorded h ht hb hp (List.mem_append_left _ (List.mem_singleton_self _))
  intro p hp
  simp only [Area.corners, List.mem_cons, List.not_mem_nil, or_false] at hp
  rw [add_sub_cancel, add_sub_cancel] at h2
  rcases hp with rfl | rfl | rfl | rfl <;> exact BBox.has_between h1 h2 (by simp) (by simp)

/-- C58 as stated: … and every background and border (for margins that are not negative). -/
def C58_full : Prop :=
  ∀ (y0 : ℚ) (size : PVec2 Length) (fs : List Fragment), uprightAll fs →
    (∀ p ∈ placesAll [] fs, p.2.textOk) → ∀ b, ReportedExtent y0 size fs (some b) →
    ∀ anc st g m cs, (anc, Fragment.box st g m cs) ∈ placesAll [] fs → g.margin.NonNeg →
    ∀ c ∈ ((Fragment.box st g m []).paintOnto (blockAt (sumOffsets anc))).calls,
    ∀ p ∈ c.extent, b.Has (pxToIn y0 p)

theorem ownCalls_extent {o : PVec2 Length} {st : Style} {g : BoxGeom} {m : CollapsedBlockMargins}
    {cs : List Fragment} (hg : g.NonNeg) {c : DrawCall} (hc : c ∈ ownCalls o (.box st g m cs))
    {p : ℚ × ℚ} (hp : p ∈ c.extent) : (g.borderArea o).Has p := by
  simp only [ownCalls, List.mem_append, List.mem_singleton, List.mem_filterMap] at hc
  rcases hc with rfl | hc | ⟨s, _, hs⟩
  · simp [DrawCall.extent] at hp
  · unfold backgroundCall at hc
    split at hc
    · rw [List.mem_singleton] at hc
      subst hc
      obtain ⟨⟨h1, h2, h3, h4⟩, ⟨h5, h6, h7, h8⟩, h9, h10⟩ := hg
      simp only [DrawCall.extent, List.mem_cons, List.not_mem_nil, or_false] at hp
      rcases hp with rfl | rfl | rfl | rfl <;> simp only [Area.Has, BoxGeom.borderArea] <;>
        refine ⟨?_, ?_, ?_, ?_⟩ <;> linarith
    · simp at hc
  · unfold edgeCall at hs
    split at hs
    · cases hs
      have := C57_inside o g hg s (st.resolved (st.edgeColor s)) (st.edgeStyle s)
      exact this.2.2 p (this.1 p hp)
    · cases hs

/-- C58 (partial: for boxes without negative sizes; layout can produce a negative width, see
`C58_witness`): the extent contains every background and border. -/
theorem C58_decorations_partial (y0 : ℚ) (size : PVec2 Length) (fs : List Fragment)
    (h : uprightAll fs) (ht : ∀ p ∈ placesAll [] fs, p.2.textOk) (b : BBox)
    (hb : ReportedExtent y0 size fs (some b)) (anc : List Fragment) (st : Style) (g : BoxGeom)
    (m : CollapsedBlockMargins) (cs : List Fragment)
    (hp : (anc, Fragment.box st g m cs) ∈ placesAll [] fs) (hm : g.margin.NonNeg) (hg : g.NonNeg) :
    ∀ c ∈ ((Fragment.box st g m []).paintOnto (blockAt (sumOffsets anc))).calls,
    ∀ p ∈ c.extent, b.Has (pxToIn y0 p) := by
  intro c hc p hpe
  have ha := alone_own (f := .box st g m []) trivial (sumOffsets anc)
  rw [Fragment.alone] at ha
  rw [ha] at hc
  have hin := ownCalls_extent (m := m) (cs := []) hg hc hpe
  have h0 := C58_margin_boxes y0 size fs h ht b hb anc st g m cs hp
  refine BBox.has_between
    (h0 ((g.marginArea (sumOffsets anc)).left, (g.marginArea (sumOffsets anc)).top) (by simp [Area.corners]))
    (h0 ((g.marginArea (sumOffsets anc)).right, (g.marginArea (sumOffsets anc)).bottom)
      (by simp [Area.corners])) ?_ ?_
  · obtain ⟨m1, m2, m3, m4⟩ := hm
    obtain ⟨e1, e2, e3, e4⟩ := hin
    simp only [BoxGeom.marginArea]
    exact ⟨.inl (by linarith), .inr (by linarith)⟩
  · obtain ⟨m1, m2, m3, m4⟩ := hm
    obtain ⟨e1, e2, e3, e4⟩ := hin
    simp only [BoxGeom.marginArea]
    exact ⟨.inl (by linarith), .inr (by linarith)⟩

/-! ## Pages -/

/-- C55: painting the result of a layout does not fail and visits its fragments in tree order,
each at the sum of the offsets of the fragments around it. -/
theorem C55_page (E : TextEnv) (root : Bfc) (size : PVec2 Length) (fs : List Fragment)
    (h : rootLayout E root size = .ok fs) :
    (paintPage size fs).panic = none ∧
    (paintPage size fs).calls = (placesAll [] fs).flatMap fun p =>
      (p.2.alone.paintOnto (blockAt (sumOffsets p.1))).calls := by
  have := C55_tree_order ⟨⟨0, 0⟩, size⟩ fs (rootLayout_up h)
  simp only [pvec2_add, zero_add] at this
  exact this

/-- a style for examples, with some decorations -/
def framed : Style :=
  (((((((plainStyle.set .marginTop (.length 3)).set .marginLeft (.length 5)).set .paddingLeft
    (.length 1)).set .borderTopWidth (.length 2)).set .borderTopStyle LineStyle.solid).set .borderLeftWidth
    (.length 4)).set .borderLeftStyle LineStyle.dashed).set .backgroundColor (.rgba ⟨255, 0, 0, 255⟩)

/-- a box tree for examples: a block with two words -/
def framedPage : Bfc :=
  .mk (.blockLevelBoxes [.sameFormattingContextBlock framed (.inlineFormattingContext plainStyle
    [.textRun plainStyle "ab cd".toList (blockEnv.font plainStyle)])]) false

/-- what is painted for a box tree -/
def paintOf (root : Bfc) (size : PVec2 Length) : Option Trace :=
  match rootLayout blockEnv root size with
  | .ok fs => some (paintPage size fs)
  | _ => none

/-- C55, C57: the box, its background, its two borders, and the two lines of text -/
example : paintOf framedPage ⟨50, 50⟩ = some ⟨[.bbox 0 0 50 (217/5),
    .rect 5 3 45 (202/5) ⟨255, 0, 0, 255⟩,
    .line [(5, 4), (50, 4)] ⟨0, 0, 0, 255⟩ 2 .solid,
    .line [(7, 217/5), (7, 3)] ⟨0, 0, 0, 255⟩ 4 .dashed,
    .bbox 10 5 40 (96/5), .bbox 10 (33/5) 20 (96/5),
    .text "ab" 10 (93/5) GCtx.new ⟨0, 0, 0, 255⟩,
    .bbox 10 (121/5) 40 (96/5), .bbox 10 (129/5) 20 (96/5),
    .text "cd" 10 (189/5) GCtx.new ⟨0, 0, 0, 255⟩], none⟩ := by decide +kernel

/-- C56: the same text in a fragment moved by (2, 3) and in a containing block moved by (2, 3) -/
example :
    (paintAll (blockAt ⟨10, 20⟩) [.anonymous ⟨⟨2, 3⟩, ⟨5, 5⟩⟩ [.text plainStyle ⟨⟨1, 1⟩, ⟨5, 5⟩⟩
      ⟨blockEnv.font plainStyle, ['a'], none⟩] (.horizontalTb, .ltr)]).calls =
    [.bbox 12 23 5 5, .bbox 13 24 5 5, .text "a" 13 36 GCtx.new ⟨0, 0, 0, 255⟩] ∧
    (paintAll (blockAt ⟨0, 0⟩) [.text plainStyle ⟨⟨1, 1⟩, ⟨5, 5⟩⟩
      ⟨blockEnv.font plainStyle, ['a'], none⟩]).calls.map (DrawCall.move ⟨12, 23⟩) =
    [.bbox 13 24 5 5, .text "a" 13 36 GCtx.new ⟨0, 0, 0, 255⟩] := by
  constructor <;> decide +kernel

/-- C57: the left border of the example above fills the strip from 5 to 9 -/
example : (DrawCall.line [(7, 217/5), (7, 3)] ⟨0, 0, 0, 255⟩ 4 .dashed).extent =
    [(5, 217/5), (9, 217/5), (5, 3), (9, 3)] := by decide +kernel

/-- C58: the extent of the example above on a page with the origin at 1 inch -/
example : (match paintOf framedPage ⟨50, 50⟩ with
    | some t => match (RDev.new 1).execAll t.calls with
      | .ok d => (match d.release with
        | .ok r => r.bbox
        | _ => none)
      | _ => none
    | none => none) = some ⟨0, 17/32, 50/96, 1⟩ := by decide +kernel

/-- a block with a left margin of 20 and a height of 5, for a page that is too narrow -/
def narrowPage : Bfc :=
  .mk (.blockLevelBoxes [emptyBlock (((plainStyle.set .marginLeft (.length 20)).set .height
    (.length 5)).set .backgroundColor (.rgba ⟨255, 0, 0, 255⟩))]) false

/-- C58: on a page of width 10, the background of a block with left margin 20 is painted from
20 to 10, and the recorded margin box goes from 0 to 10. -/
theorem C58_witness : paintOf narrowPage ⟨10, 50⟩ =
    some ⟨[.bbox 0 0 10 5, .rect 20 0 (-10) 5 ⟨255, 0, 0, 255⟩], none⟩ := by decide +kernel

/-- geometry of a page that consists of one empty box without padding and border -/
def onlyGeom (r : Except Panic (List Fragment)) : Option (Rect Length × Sides Length) :=
  match r with
  | .ok [.box _ g _ []] => some (g.contentRect, g.margin)
  | _ => none

/-- C58 is false as stated: the width of a block can be negative, and its margin box does not
contain its border box then. -/
theorem C58_full_false : ¬ C58_full := by
  intro h
  have h1 : onlyGeom (rootLayout blockEnv narrowPage ⟨10, 50⟩) =
      some (⟨⟨20, 0⟩, ⟨-10, 5⟩⟩, ⟨20, 0, 0, 0⟩) := by decide +kernel
  have h2 := C58_witness
  unfold paintOf at h2
  unfold onlyGeom at h1
  split at h1
  · rename_i st g m hr
    rw [hr] at h2
    simp only [Option.some.injEq, Prod.mk.injEq] at h1
    have hup := rootLayout_up hr
    have hok : ∀ p ∈ placesAll [] [Fragment.box st g m []], p.2.textOk := by
      intro p hp t ht
      simp only [placesAll, Fragment.places, List.append_nil, List.mem_singleton] at hp
      subst hp
      cases ht
    obtain ⟨e, he, hne⟩ := C58_reported 0 ⟨10, 50⟩ _ hup hok
    simp only [Option.some.injEq] at h2
    have hr : ReportedExtent 0 ⟨10, 50⟩ [Fragment.box st g m []] (some ⟨0, -5/96, 10/96, 0⟩) := by
      obtain ⟨d, r, e1, e2, e3⟩ := he
      refine ⟨d, r, e1, e2, ?_⟩
      rw [h2] at e1
      have : (match (RDev.new 0).execAll [.bbox 0 0 10 5, .rect 20 0 (-10) 5 ⟨255, 0, 0, 255⟩] with
        | .ok d => (match d.release with
          | .ok r => r.bbox
          | _ => none)
        | _ => none) = some ⟨0, -5/96, 10/96, 0⟩ := by decide +kernel
      rw [e1] at this
      simp only [e2] at this
      exact this
    have := h 0 ⟨10, 50⟩ _ hup hok _ hr [] st g m [] (by simp [placesAll, Fragment.places])
      (by rw [h1.2]; simp [Sides.NonNeg]) (.rect 20 0 (-10) 5 ⟨255, 0, 0, 255⟩) (by
        have h3 := congrArg Trace.calls h2
        have ha := alone_own (f := .box st g m []) trivial (sumOffsets [])
        rw [page_own _ _ hup] at h3
        simp only [placesAll, Fragment.places, List.append_nil, List.flatMap_cons, List.flatMap_nil] at h3
        rw [Fragment.alone] at ha
        rw [ha, h3]
        simp) (20, 0) (by simp [DrawCall.extent])
    simp only [BBox.Has, pxToIn] at this
    norm_num at this
  · cases h1

end Sinab
