import Verif.Spec.Vertical
import Verif.Lemmas.BlockLayout
import Verif.Lemmas.ConstructGood

/-! Layout of blocks places them as `Spec/Vertical` says. -/

namespace Sinab.Vertical

/-! ## Items -/

theorem run_append (s : State) (a b : List Item) : s.run (a ++ b) = (s.run a).run b := by
  simp [State.run]

theorem run_margins (s : State) (ms : List Length) : s.run (ms.map .margin) = ⟨s.pos, s.pend ++ ms⟩ := by
  induction ms generalizing s with
  | nil => simp [State.run]
  | cons m ms ih =>
    have : s.run ((m :: ms).map .margin) = (s.step (.margin m)).run (ms.map .margin) := rfl
    rw [this, ih]
    simp [State.step]

theorem margins_eq {l : List Item} (h : l.all Item.isMargin = true) : l = (leading l).map .margin := by
  induction l with
  | nil => rfl
  | cons i l ih =>
    cases i with
    | margin m =>
      simp only [List.all_cons, Item.isMargin, Bool.true_and] at h
      simp only [leading, List.map_cons, ← ih h]
    | gap d => simp [Item.isMargin] at h

theorem gap_eq {l : List Item} (h : l.all Item.isMargin = false) :
    ∃ d r, l = (leading l).map .margin ++ .gap d :: r := by
  induction l with
  | nil => simp at h
  | cons i l ih =>
    cases i with
    | margin m =>
      simp only [List.all_cons, Item.isMargin, Bool.true_and] at h
      obtain ⟨d, r, e⟩ := ih h
      exact ⟨d, r, by simp only [leading, List.map_cons, List.cons_append, ← e]⟩
    | gap d => exact ⟨d, l, rfl⟩

theorem leading_margins (ms : List Length) (l : List Item) :
    leading (ms.map .margin ++ l) = ms ++ leading l := by
  induction ms with
  | nil => rfl
  | cons m ms ih => simp only [List.map_cons, List.cons_append, leading, ih]

theorem all_margins (ms : List Length) : (ms.map Item.margin).all Item.isMargin = true := by
  induction ms with
  | nil => rfl
  | cons m ms ih => simp [Item.isMargin]

theorem leading_append_margins {a : List Item} (h : a.all Item.isMargin = true) (b : List Item) :
    leading (a ++ b) = leading a ++ leading b := by
  conv_lhs => rw [margins_eq h]
  rw [leading_margins]

theorem leading_append_gap {a : List Item} (h : a.all Item.isMargin = false) (b : List Item) :
    leading (a ++ b) = leading a := by
  obtain ⟨d, r, e⟩ := gap_eq h
  conv_lhs => rw [e, List.append_assoc, leading_margins]
  simp [leading]

/-- after a gap, only the position counts -/
theorem run_gap (s : State) {l : List Item} {d : Length} {r : List Item}
    (e : l = (leading l).map .margin ++ .gap d :: r) :
    s.run l = State.run ⟨s.pos + jointMargin (s.pend ++ leading l) + d, []⟩ r := by
  conv_lhs => rw [e, run_append, run_margins]
  rfl

theorem jointMargin_perm {a b : List Length} (h : a.Perm b) : jointMargin a = jointMargin b := by
  unfold jointMargin
  rw [h.foldr_eq 0, h.foldr_eq 0]

theorem Is.perm {m : CollapsedMargin} {a b : List Length} (hm : m.Is a) (h : a.Perm b) : m.Is b := by
  unfold CollapsedMargin.Is at *
  rw [← h.foldr_eq 0, ← h.foldr_eq 0]
  exact hm

/-! ## Fragments -/

theorem borderRect_start (g : BoxGeom) : g.borderRect.startCorner.block =
    g.contentRect.startCorner.block - (g.padding.blockStart + g.border.blockStart) := by
  show g.contentRect.startCorner.block - g.padding.blockStart - g.border.blockStart = _
  ring

theorem borderRect_size (g : BoxGeom) : g.borderRect.size.block =
    (g.padding.blockStart + g.border.blockStart) + g.contentRect.size.block +
      (g.padding.blockEnd + g.border.blockEnd) := by
  show g.contentRect.size.block + g.padding.blockSum + g.border.blockSum = _
  unfold Sides.blockSum
  ring

theorem edgesAt_move (y d : Length) (g : BoxGeom) :
    edgesAt y { g with contentRect := g.contentRect.addBlock d } = edgesAt (y + d) g := by
  unfold edgesAt
  simp only [borderRect_start, borderRect_size, Rect.addBlock, Prod.mk.injEq]
  constructor <;> ring

theorem vertical_move (w : Length) (h : LengthOrAuto) (b : BlockLevelBox) (style : Style) (g : BoxGeom) (m : CollapsedBlockMargins)
    (fs : List Fragment) (d : Length) :
    vertical w h b (.box style { g with contentRect := g.contentRect.addBlock d } m fs) =
      vertical w h b (.box style g m fs) := by
  have hc : ∀ st root c, verticalIn w h st root { g with contentRect := g.contentRect.addBlock d } c fs =
      verticalIn w h st root g c fs := by
    intro st root c
    cases c <;> simp only [verticalIn, Rect.addBlock]
  cases b with
  | sameFormattingContextBlock st c => simp only [vertical, hc]
  | independent st c =>
    cases c
    simp only [vertical, hc]
  | _ => simp only [vertical]

theorem drawnEdges_move (b : BlockLevelBox) (style : Style) (g : BoxGeom) (m : CollapsedBlockMargins)
    (fs : List Fragment) (y d : Length) :
    drawnEdges y b (.box style { g with contentRect := g.contentRect.addBlock d } m fs) =
      drawnEdges (y + d) b (.box style g m fs) := by
  have e : y + (g.contentRect.startCorner.block + d) = y + d + g.contentRect.startCorner.block := by ring
  cases b with
  | sameFormattingContextBlock st c =>
    simp only [drawnEdges, edgesAt_move]
    simp only [Rect.addBlock, e]
  | independent st c =>
    cases c
    simp only [drawnEdges, edgesAt_move]
    simp only [Rect.addBlock, e]
  | _ => simp only [drawnEdges]

/-- `m` and `H` are margins and height of the block `v`; `drawn y` are the edges if its upper edge is at `y` -/
structure Fits (v : VBox) (m : CollapsedBlockMargins) (H : Length) (drawn : Length → List (Length × Length)) :
    Prop where
  through : m.collapsedThrough = v.through false
  start : m.start.Is (leading (v.items false).dropLast)
  leading_eq : v.through false = false → leading (v.items false).dropLast = leading (v.items false)
  flat : v.through false = true → H = 0 ∧
    ∃ mb, leading (v.items false) = leading (v.items false).dropLast ++ [mb] ∧ m.«end».Is [mb]
  solid : v.through false = false → ∀ s : State,
    (s.run (v.items false)).pos = v.top false s + H ∧ m.«end».Is (s.run (v.items false)).pend
  edges : ∀ (s : State) (y : Length), (v.through false = false → y = v.top false s) →
    drawn y = v.edges false s y

/-- a block that has been laid out but not been placed -/
def BlockOk (w : Length) (h : LengthOrAuto) (b : BlockLevelBox) (style : Style) (g : BoxGeom) (m : CollapsedBlockMargins)
    (fs : List Fragment) : Prop :=
  Fits (vertical w h b (.box style g m fs)) m g.borderRect.size.block fun y => drawnEdges y b (.box style g m fs)

/-- a fragment of a block-level box that has not been placed -/
def Ok (w : Length) (h : LengthOrAuto) (b : BlockLevelBox) : Fragment → Prop
  | .box style g m fs => BlockOk w h b style g m fs
  | _ => True

theorem vertical_other (w : Length) (h : LengthOrAuto) (b : BlockLevelBox) {f : Fragment} (hf : ∀ st g m fs, f ≠ .box st g m fs) :
    vertical w h b f = .out ∧ ∀ y, drawnEdges y b f = [] := by
  cases f with
  | box st g m fs => exact absurd rfl (hf st g m fs)
  | _ =>
    cases b with
    | independent st c => cases c; exact ⟨by simp only [vertical], fun y => by simp only [drawnEdges]⟩
    | _ => exact ⟨by simp only [vertical], fun y => by simp only [drawnEdges]⟩

/-! ## Placing one block -/

/-- where a block is placed, when margins do not adjoin the margin of the block around it -/
theorem place_open {w : Length} {h : LengthOrAuto} {b : BlockLevelBox} {f f' : Fragment} {st st' : PlacementState}
    (hf : Ok w h b f) (e : placeFragment st f = .ok (f', st')) (hc : st.collapses = false) {y : Length} {s : State}
    (hp : s.pos = y + st.position) (hm : st.currentMargin.Is s.pend) :
    vertical w h b f' = vertical w h b f ∧
    drawnEdges y b f' = (vertical w h b f).edges false s ((vertical w h b f).top false s) ∧
    (s.run ((vertical w h b f).items false)).pos = y + st'.position ∧
    st'.currentMargin.Is (s.run ((vertical w h b f).items false)).pend ∧ st'.collapses = false ∧
    st'.startMargin = st.startMargin := by
  cases f with
  | text => cases e
  | anonymous r cs mode =>
    simp only [placeFragment] at e
    split at e
    · cases e
    · split at e
      · cases e
      · cases e
        obtain ⟨v1, v2⟩ := vertical_other w h b (f := .anonymous r cs mode) (fun _ _ _ _ => by simp)
        obtain ⟨w1, w2⟩ := vertical_other w h b (f := .anonymous (r.addBlock st.position) cs mode)
          (fun _ _ _ _ => by simp)
        rw [v1, w1, w2]
        exact ⟨rfl, rfl, hp, hm, hc, rfl⟩
  | box style g m fs =>
    replace hf : BlockOk w h b style g m fs := hf
    simp only [placeFragment, hc, Bool.false_eq_true, if_false, Except.ok.injEq] at e
    have hstart := hm.adjoin hf.start
    have hy : y + (CollapsedMargin.solve (st.currentMargin.adjoin m.start) + st.position) =
        (vertical w h b (.box style g m fs)).top false s := by
      rw [hstart.solve]
      unfold VBox.top
      rw [hp]
      ring
    split at e
    · rename_i ht
      cases e
      rw [hf.through] at ht
      obtain ⟨-, mb, q1, q2⟩ := hf.flat ht
      have hrun : s.run ((vertical w h b (.box style g m fs)).items false) =
          ⟨s.pos, s.pend ++ leading ((vertical w h b (.box style g m fs)).items false)⟩ := by
        conv_lhs => rw [margins_eq ht, run_margins]
      refine ⟨vertical_move .., ?_, ?_, ?_, rfl, rfl⟩
      · rw [drawnEdges_move, hy]
        exact hf.edges s _ fun _ => rfl
      · rw [hrun]
        exact hp
      · rw [hrun, q1]
        have := hstart.adjoin q2
        rwa [List.append_assoc] at this
    · rename_i ht
      cases e
      rw [hf.through, Bool.not_eq_true] at ht
      obtain ⟨q1, q2⟩ := hf.solid ht s
      refine ⟨vertical_move .., ?_, ?_, q2, rfl, rfl⟩
      · rw [drawnEdges_move, hy]
        exact hf.edges s _ fun _ => rfl
      · rw [q1, ← hy, borderRect_size]
        simp only [Sides.blockSum]
        ring

/-- where a block is placed, when its margins adjoin the margin of the block around it -/
theorem place_closed {w : Length} {h : LengthOrAuto} {b : BlockLevelBox} {f f' : Fragment} {st st' : PlacementState}
    (hf : Ok w h b f) (e : placeFragment st f = .ok (f', st')) (hc : st.collapses = true) (hp : st.position = 0)
    (hm : st.currentMargin = .zero) {ms : List Length} (hs : st.startMargin.Is ms) :
    vertical w h b f' = vertical w h b f ∧ st'.startMargin.Is (ms ++ leading ((vertical w h b f).items false)) ∧
    (((vertical w h b f).through false = true ∧ st'.collapses = true ∧ st'.position = 0 ∧ st'.currentMargin = .zero ∧
      ∀ y s, drawnEdges y b f' = (vertical w h b f).edges false s y) ∨
    ((vertical w h b f).through false = false ∧ st'.collapses = false ∧
      ∀ s : State, drawnEdges ((vertical w h b f).top false s) b f' =
          (vertical w h b f).edges false s ((vertical w h b f).top false s) ∧
        (s.run ((vertical w h b f).items false)).pos = (vertical w h b f).top false s + st'.position ∧
        st'.currentMargin.Is (s.run ((vertical w h b f).items false)).pend ∧
        (vertical w h b f).top false s = s.pos + jointMargin (s.pend ++ leading ((vertical w h b f).items false)))) := by
  cases f with
  | text => cases e
  | anonymous r cs mode =>
    simp only [placeFragment] at e
    split at e
    · cases e
    · split at e
      · cases e
      · cases e
        obtain ⟨v1, v2⟩ := vertical_other w h b (f := .anonymous r cs mode) (fun _ _ _ _ => by simp)
        obtain ⟨w1, w2⟩ := vertical_other w h b (f := .anonymous (r.addBlock st.position) cs mode)
          (fun _ _ _ _ => by simp)
        rw [v1, w1]
        refine ⟨rfl, ?_, .inl ⟨rfl, hc, hp, hm, fun y s => ?_⟩⟩
        · simpa [VBox.items, leading] using hs
        · rw [w2]
          rfl
  | box style g m fs =>
    replace hf : BlockOk w h b style g m fs := hf
    have h0 : CollapsedMargin.solve st.currentMargin = 0 := by
      rw [hm]
      decide +kernel
    simp only [placeFragment, hc, if_true, h0, ne_eq, not_true_eq_false, if_false] at e
    have hstart := hs.adjoin hf.start
    split at e
    · rename_i ht
      cases e
      rw [hf.through] at ht
      obtain ⟨-, mb, q1, q2⟩ := hf.flat ht
      refine ⟨rfl, ?_, .inl ⟨ht, rfl, hp, hm, fun y s => hf.edges s y fun h => ?_⟩⟩
      · rw [q1]
        have := hstart.adjoin q2
        rwa [List.append_assoc] at this
      · rw [ht] at h
        cases h
    · rename_i ht
      cases e
      rw [hf.through, Bool.not_eq_true] at ht
      refine ⟨vertical_move .., ?_, .inr ⟨ht, rfl, fun s => ?_⟩⟩
      · rw [← hf.leading_eq ht]
        exact hstart
      · obtain ⟨q1, q2⟩ := hf.solid ht s
        refine ⟨?_, ?_, q2, ?_⟩
        · rw [drawnEdges_move, hp]
          simp only [add_zero]
          exact hf.edges s _ fun _ => rfl
        · rw [q1, borderRect_size]
          simp only [Sides.blockSum, hp]
          ring
        · unfold VBox.top
          rw [hf.leading_eq ht]

/-! ## Placing all -/

theorem place_all_open {w : Length} {h : LengthOrAuto} {bs : List BlockLevelBox} {fs : List Fragment}
    (hf : List.Forall₂ (Ok w h) bs fs) : ∀ {fs' : List Fragment} {st st' : PlacementState},
    placeAll st fs = .ok (fs', st') →
    st.collapses = false → ∀ {y : Length} {s : State}, s.pos = y + st.position → st.currentMargin.Is s.pend →
    verticals w h bs fs' = verticals w h bs fs ∧ fs'.length = bs.length ∧
    drawnOf y bs fs' = edgesOf false s none (verticals w h bs fs) ∧
    (s.run (itemsOf false (verticals w h bs fs))).pos = y + st'.position ∧
    st'.currentMargin.Is (s.run (itemsOf false (verticals w h bs fs))).pend ∧ st'.collapses = false ∧
    st'.startMargin = st.startMargin := by
  induction hf with
  | nil =>
    intro fs' st st' e hc y s hp hm
    cases e
    exact ⟨rfl, rfl, by simp only [drawnOf, verticals, edgesOf], hp, hm, hc, rfl⟩
  | @cons b f bs fs h1 h2 ih =>
      intro fs' st st' e hc y s hp hm
      obtain ⟨⟨f1, st1⟩, e1, e⟩ := bind_eq_ok.1 e
      obtain ⟨⟨fs1, st2⟩, e2, e⟩ := bind_eq_ok.1 e
      cases e
      obtain ⟨a1, a2, a3, a4, a5, a6⟩ := place_open h1 e1 hc hp hm
      obtain ⟨c1, c0, c2, c3, c4, c5, c6⟩ := ih e2 a5 a3 a4
      simp only [verticals, drawnOf, edgesOf, itemsOf, run_append, a1, c1, a2, c2]
      refine ⟨trivial, by simp [c0], ?_, c3, c4, c5, c6.trans a6⟩
      cases (vertical w h b f).through false <;> rfl

theorem place_all_closed {w : Length} {h : LengthOrAuto} {bs : List BlockLevelBox} {fs : List Fragment}
    (hf : List.Forall₂ (Ok w h) bs fs) : ∀ {fs' : List Fragment} {st st' : PlacementState},
    placeAll st fs = .ok (fs', st') →
    st.collapses = true → st.position = 0 → st.currentMargin = .zero → ∀ {ms : List Length}, st.startMargin.Is ms →
    verticals w h bs fs' = verticals w h bs fs ∧ fs'.length = bs.length ∧
    st'.startMargin.Is (ms ++ leading (itemsOf false (verticals w h bs fs))) ∧
    (((itemsOf false (verticals w h bs fs)).all Item.isMargin = true ∧ st'.collapses = true ∧ st'.position = 0 ∧
      st'.currentMargin = .zero ∧
      ∀ y s, drawnOf y bs fs' = edgesOf false s (some y) (verticals w h bs fs)) ∨
    ((itemsOf false (verticals w h bs fs)).all Item.isMargin = false ∧ st'.collapses = false ∧
      ∀ (y : Length) (s : State), y = s.pos + jointMargin (s.pend ++ leading (itemsOf false (verticals w h bs fs))) →
        drawnOf y bs fs' = edgesOf false s (some y) (verticals w h bs fs) ∧
        (s.run (itemsOf false (verticals w h bs fs))).pos = y + st'.position ∧
        st'.currentMargin.Is (s.run (itemsOf false (verticals w h bs fs))).pend)) := by
  induction hf with
  | nil =>
    intro fs' st st' e hc hp hm ms hs
    cases e
    refine ⟨rfl, rfl, ?_, .inl ⟨rfl, hc, hp, hm, fun y s => by simp only [drawnOf, verticals, edgesOf]⟩⟩
    simpa [verticals, itemsOf, leading] using hs
  | @cons b f bs fs h1 h2 ih =>
      intro fs' st st' e hc hp hm ms hs
      obtain ⟨⟨f1, st1⟩, e1, e⟩ := bind_eq_ok.1 e
      obtain ⟨⟨fs1, st2⟩, e2, e⟩ := bind_eq_ok.1 e
      cases e
      obtain ⟨a1, a2, a3⟩ := place_closed h1 e1 hc hp hm hs
      rcases a3 with ⟨t1, t2, t3, t4, t5⟩ | ⟨t1, t2, t3⟩
      · obtain ⟨c1, c0, c2, c3⟩ := ih e2 t2 t3 t4 a2
        have hl := leading_append_margins t1 (itemsOf false (verticals w h bs fs))
        have ha : ((vertical w h b f).items false ++ itemsOf false (verticals w h bs fs)).all Item.isMargin =
            (itemsOf false (verticals w h bs fs)).all Item.isMargin := by
          rw [List.all_append]
          have : ((vertical w h b f).items false).all Item.isMargin = true := t1
          rw [this, Bool.true_and]
        simp only [verticals, drawnOf, edgesOf, itemsOf, a1, c1, t1, if_true, hl, ha, List.length_cons, c0]
        refine ⟨trivial, trivial, by rw [← List.append_assoc]; exact c2, ?_⟩
        rcases c3 with ⟨d1, d2, d3, d4, d5⟩ | ⟨d1, d2, d3⟩
        · refine .inl ⟨d1, d2, d3, d4, fun y s => ?_⟩
          rw [t5 y s, d5 y (s.run ((vertical w h b f).items false))]
          rfl
        · refine .inr ⟨d1, d2, fun y s hy => ?_⟩
          have hrun : s.run ((vertical w h b f).items false) =
              ⟨s.pos, s.pend ++ leading ((vertical w h b f).items false)⟩ := by
            conv_lhs => rw [margins_eq t1, run_margins]
          have := d3 y (s.run ((vertical w h b f).items false)) (by
            rw [hrun]
            simp only
            rw [hy, List.append_assoc])
          rw [run_append]
          refine ⟨?_, this.2⟩
          rw [t5 y s, this.1]
          rfl
      · have hl := leading_append_gap t1 (itemsOf false (verticals w h bs fs))
        have ha : ((vertical w h b f).items false ++ itemsOf false (verticals w h bs fs)).all Item.isMargin = false := by
          rw [List.all_append]
          have : ((vertical w h b f).items false).all Item.isMargin = false := t1
          rw [this, Bool.false_and]
        simp only [verticals, drawnOf, edgesOf, itemsOf, a1, t1, Bool.false_eq_true, if_false, hl, ha, List.length_cons]
        have hopen := fun s => place_all_open h2 e2 t2 (t3 s).2.1 (t3 s).2.2.1
        obtain ⟨c1, c0, -, -, -, c5, c6⟩ := hopen ⟨0, []⟩
        refine ⟨by rw [c1], by rw [c0], by rw [c6]; exact a2, .inr ⟨trivial, c5, fun y s hy => ?_⟩⟩
        obtain ⟨-, -, d2, d3, d4, -, -⟩ := hopen s
        rw [run_append]
        rw [← (t3 s).2.2.2] at hy
        subst hy
        exact ⟨by rw [(t3 s).1, d2], d3, d4⟩

/-! ## Contents -/

/-- the contents of a block, laid out; `coll`: the margins in it adjoin its upper margin -/
structure ContentOk (K : List Item) (drawn : Length → List (Length × Length))
    (spec : State → Option Length → List (Length × Length)) (coll : Bool) (fc : FlowChildren) : Prop where
  plain : coll = false → fc.margins.collapsedThrough = false ∧ ∀ s : State, s.pend = [] →
    drawn s.pos = spec s none ∧ (s.run K).pos = s.pos + fc.blockSize ∧ fc.margins.«end».Is (s.run K).pend
  start : coll = true → fc.margins.start.Is (leading K)
  flat : coll = true → K.all Item.isMargin = true → fc.margins.collapsedThrough = true ∧ fc.margins.«end» = .zero ∧
    fc.blockSize = 0 ∧ ∀ s y, drawn y = spec s (some y)
  solid : coll = true → K.all Item.isMargin = false → fc.margins.collapsedThrough = false ∧
    ∀ (y : Length) (s : State), y = s.pos + jointMargin (s.pend ++ leading K) →
      drawn y = spec s (some y) ∧ (s.run K).pos = y + fc.blockSize ∧ fc.margins.«end».Is (s.run K).pend

theorem joint_nil : jointMargin [] = 0 := by decide +kernel

theorem solve_zero : CollapsedMargin.zero.solve = 0 := by decide +kernel

theorem lines_ok {fc : FlowChildren} (h : fc.margins = ⟨false, .zero, .zero⟩) (coll : Bool) :
    ContentOk [.gap fc.blockSize] (fun _ => []) (fun _ _ => []) coll fc := by
  refine ⟨fun _ => ⟨by rw [h], fun s hs => ⟨rfl, ?_, ?_⟩⟩, fun _ => ?_, fun _ h => ?_,
    fun _ _ => ⟨by rw [h], fun y s hy => ⟨rfl, ?_, ?_⟩⟩⟩
  · simp [State.run, State.step, hs, joint_nil]
  · rw [h]
    exact CollapsedMargin.is_zero
  · rw [h]
    exact CollapsedMargin.is_zero
  · cases h
  · simp [State.run, State.step, hy, leading]
  · rw [h]
    exact CollapsedMargin.is_zero

/-- blocks one after the other, placed in a block -/
theorem placed_ok {w : Length} {h : LengthOrAuto} {bs : List BlockLevelBox} {fs fs' : List Fragment} {coll : Bool}
    {st : PlacementState} (hf : List.Forall₂ (Ok w h) bs fs)
    (e : placeAll (PlacementState.start coll) fs = .ok (fs', st)) :
    fs'.length = bs.length ∧
    ContentOk (itemsOf false (verticals w h bs fs')) (fun y => drawnOf y bs fs')
      (fun s p => edgesOf false s p (verticals w h bs fs')) coll
      ⟨fs', st.position, ⟨st.collapses, st.startMargin, st.currentMargin⟩⟩ := by
  cases coll with
  | false =>
    obtain ⟨c1, c0, -, -, -, c5, -⟩ := place_all_open hf e rfl (y := 0) (s := ⟨0, []⟩)
      (add_zero _).symm CollapsedMargin.is_zero
    rw [c1]
    refine ⟨c0, fun _ => ⟨c5, fun s hs => ?_⟩, fun h => absurd h (by decide), fun h => absurd h (by decide),
      fun h => absurd h (by decide)⟩
    obtain ⟨-, -, d2, d3, d4, -, -⟩ := place_all_open hf e rfl (y := s.pos) (s := s) (add_zero _).symm
      (by rw [hs]; exact CollapsedMargin.is_zero)
    exact ⟨d2, d3, d4⟩
  | true =>
    obtain ⟨c1, c0, c2, c3⟩ := place_all_closed hf e rfl rfl rfl CollapsedMargin.is_zero
    rw [c1]
    refine ⟨c0, fun h => absurd h (by decide), fun _ => c2, fun _ ha => ?_, fun _ ha => ?_⟩
    · rcases c3 with ⟨-, d2, d3, d4, d5⟩ | ⟨d1, -⟩
      · exact ⟨d2, d4, d3, fun s y => d5 y s⟩
      · rw [ha] at d1
        cases d1
    · rcases c3 with ⟨d1, -⟩ | ⟨-, d2, d3⟩
      · rw [ha] at d1
        cases d1
      · exact ⟨d2, d3⟩

/-! ## A block with its contents -/

theorem dropLast_block (mt mb : Length) (B : List Item) :
    (Item.margin mt :: (B ++ [.margin mb])).dropLast = .margin mt :: B := by
  rw [← List.cons_append, List.dropLast_concat]

/-- a block from what is between its margins -/
theorem fits_mk {mt mb pt pb dy : Length} {height : Option Length} {root : Bool} {lines : Option Length}
    {kids : List VBox} {B : List Item} {m : CollapsedBlockMargins} {H : Length} {drawn : Length → List (Length × Length)}
    (hi : (VBox.block mt mb pt pb dy height root lines kids).items false = .margin mt :: (B ++ [.margin mb]))
    (hs : m.start.Is (mt :: leading B))
    (hflat : B.all Item.isMargin = true → m.collapsedThrough = true ∧ H = 0 ∧ m.«end».Is [mb] ∧ ∀ (s : State) y,
      drawn (y + pt) = edgesOf false (s.run (.margin mt :: gapUnless (!root && pt == 0) pt))
        (if !root && pt == 0 then some y else none) kids)
    (hsolid : B.all Item.isMargin = false → m.collapsedThrough = false ∧ ∀ (s : State) (y : Length),
      y = s.pos + jointMargin (s.pend ++ mt :: leading B) →
      ((State.mk s.pos (s.pend ++ [mt])).run B).pos = y + H ∧
      m.«end».Is (((State.mk s.pos (s.pend ++ [mt])).run B).pend ++ [mb]) ∧
      drawn (y + pt) = edgesOf false (s.run (.margin mt :: gapUnless (!root && pt == 0) pt))
        (if !root && pt == 0 then some y else none) kids) :
    Fits (.block mt mb pt pb dy height root lines kids) m H
      (fun y => ((y, y + H) :: drawn (y + pt)).map fun e => (e.1 + dy, e.2 + dy)) := by
  have ht : (VBox.block mt mb pt pb dy height root lines kids).through false = B.all Item.isMargin := by
    unfold VBox.through
    rw [hi]
    simp [Item.isMargin]
  have hd : leading ((VBox.block mt mb pt pb dy height root lines kids).items false).dropLast = mt :: leading B := by
    rw [hi, dropLast_block]
    rfl
  have hr : ∀ s : State, s.run ((VBox.block mt mb pt pb dy height root lines kids).items false) =
      ⟨((State.mk s.pos (s.pend ++ [mt])).run B).pos, ((State.mk s.pos (s.pend ++ [mt])).run B).pend ++ [mb]⟩ := by
    intro s
    rw [hi]
    show (State.mk s.pos (s.pend ++ [mt])).run (B ++ [.margin mb]) = _
    rw [run_append]
    rfl
  have hb : B.all Item.isMargin = true ∨ B.all Item.isMargin = false := by
    cases B.all Item.isMargin <;> simp
  rcases hb with hb | hb
  · obtain ⟨q1, q2, q3, q4⟩ := hflat hb
    have no : (VBox.block mt mb pt pb dy height root lines kids).through false ≠ false := by
      rw [ht, hb]
      decide
    refine ⟨by rw [ht, hb, q1], by rw [hd]; exact hs, fun h => absurd h no, fun _ => ⟨q2, mb, ?_, q3⟩,
      fun h => absurd h no, fun s y _ => ?_⟩
    · rw [hd, hi]
      show mt :: leading (B ++ [.margin mb]) = _
      rw [leading_append_margins hb]
      rfl
    · simp only [VBox.edges]
      rw [ht, hb, q4 s y, q2]
      simp
  · obtain ⟨q1, q2⟩ := hsolid hb
    have no : (VBox.block mt mb pt pb dy height root lines kids).through false ≠ true := by
      rw [ht, hb]
      decide
    have htop : ∀ s, (VBox.block mt mb pt pb dy height root lines kids).top false s =
        s.pos + jointMargin (s.pend ++ mt :: leading B) := by
      intro s
      unfold VBox.top
      rw [hd]
    refine ⟨by rw [ht, hb, q1], by rw [hd]; exact hs, fun _ => ?_, fun h => absurd h no, fun _ s => ?_, fun s y hy => ?_⟩
    · rw [hd, hi]
      show _ = mt :: leading (B ++ [.margin mb])
      rw [leading_append_gap hb]
    · rw [htop, hr]
      exact ⟨(q2 s _ rfl).1, (q2 s _ rfl).2.1⟩
    · have hy' := hy (ht.trans hb)
      rw [htop] at hy'
      obtain ⟨r1, r2, r3⟩ := q2 s y hy'
      simp only [VBox.edges]
      rw [ht, hb, hr, r3]
      simp only [r1, Bool.false_eq_true, if_false]

/-- what one meets in the contents of a block -/
def contentItems (lines : Option Length) (kids : List VBox) : List Item :=
  match lines with
  | some l => [.gap l]
  | none => itemsOf false kids

/-- a block whose contents are known -/
theorem fits_of_contents {mt mb pt pb dy : Length} {height : Option Length} {root : Bool} {lines : Option Length}
    {kids : List VBox} {K : List Item} {drawn : Length → List (Length × Length)} {fc : FlowChildren}
    {S : InFlowSizes} (hmt : S.margin.blockStart = mt) (hmb : S.margin.blockEnd = mb)
    (hs : S.startCollapses = (!root && pt == 0)) (he : S.endCollapses = (!root && pb == 0 && height.isNone))
    (hK : height = none → K = contentItems lines kids)
    (hL : leading K = leading (contentItems lines kids))
    (hc : ContentOk K drawn (fun s p => edgesOf false s p kids) (!root && pt == 0) fc) :
    Fits (.block mt mb pt pb dy height root lines kids) (collapseWithChildren S fc).1
      (pt + height.getD (collapseWithChildren S fc).2 + pb)
      (fun y => ((y, y + (pt + height.getD (collapseWithChildren S fc).2 + pb)) :: drawn (y + pt)).map
        fun e => (e.1 + dy, e.2 + dy)) := by
  generalize hab : (!root && pt == 0) = above at *
  generalize hbe : (!root && pb == 0) = below at *
  have hpt : above = true → pt = 0 := by
    rintro rfl
    simp at hab
    exact hab.2
  have hpb : below = true → pb = 0 := by
    rintro rfl
    simp at hbe
    exact hbe.2
  have hown : CollapsedBlockMargins.fromMargin S.margin = ⟨false, .new mt, .new mb⟩ := by
    rw [← hmt, ← hmb]
    rfl
  cases above with
  | false =>
    obtain ⟨p1, p2⟩ := hc.plain rfl
    have hst : (collapseWithChildren S fc).1.start.Is [mt] := by
      simp only [collapseWithChildren, hown, hs]
      exact CollapsedMargin.is_new mt
    have hth : (collapseWithChildren S fc).1.collapsedThrough = false := by
      simp only [collapseWithChildren, hs, Bool.false_and]
    have hno : ∀ {R : List Item}, (Item.gap pt :: R).all Item.isMargin = true → False := fun h => by
      simp [Item.isMargin] at h
    have hrun : ∀ (s : State) (y : Length) (R : List Item),
        y = s.pos + jointMargin (s.pend ++ mt :: leading (.gap pt :: R)) →
        (State.mk s.pos (s.pend ++ [mt])).run (.gap pt :: R) = State.run ⟨y + pt, []⟩ R := by
      intro s y R hy
      rw [hy]
      rfl
    have hdr : ∀ (s : State) (y : Length) (R : List Item),
        y = s.pos + jointMargin (s.pend ++ mt :: leading (.gap pt :: R)) →
        drawn (y + pt) = edgesOf false (s.run (.margin mt :: gapUnless (!root && pt == 0) pt))
        (if !root && pt == 0 then some y else none) kids := by
      intro s y R hy
      rw [hab]
      have : s.run (.margin mt :: gapUnless false pt) = ⟨y + pt, []⟩ := by
        rw [hy]
        rfl
      rw [this]
      exact (p2 ⟨y + pt, []⟩ rfl).1
    cases height with
    | none =>
      cases below with
      | true =>
        have he' : S.endCollapses = true := he
        refine fits_mk (B := .gap pt :: K) ?_ hst (fun h => (hno h).elim) (fun _ => ⟨hth, fun s y hy => ?_⟩)
        · have hK' := hK rfl
          cases lines <;> simp only [contentItems] at hK' <;> simp [VBox.items, hab, hbe, gapUnless, hK']
        · rw [hrun s y K hy]
          obtain ⟨r1, r2, r3⟩ := p2 ⟨y + pt, []⟩ rfl
          refine ⟨?_, ?_, hdr s y K hy⟩
          · rw [r2, hpb rfl]
            simp only [collapseWithChildren, he', if_true, Option.getD_none]
            ring
          · simp only [collapseWithChildren, he', hs, Bool.false_and, Bool.false_eq_true, if_false, if_true, hown]
            exact (CollapsedMargin.is_new mb).adjoin' r3
      | false =>
        have he' : S.endCollapses = false := he
        refine fits_mk (B := .gap pt :: (K ++ [.gap pb])) ?_ hst (fun h => (hno h).elim)
          (fun _ => ⟨hth, fun s y hy => ?_⟩)
        · have hK' := hK rfl
          cases lines <;> simp only [contentItems] at hK' <;> simp [VBox.items, hab, hbe, gapUnless, hK']
        · rw [hrun s y _ hy, run_append]
          obtain ⟨r1, r2, r3⟩ := p2 ⟨y + pt, []⟩ rfl
          refine ⟨?_, ?_, hdr s y _ hy⟩
          · show (State.run _ K).pos + jointMargin (State.run _ K).pend + pb = _
            simp only [collapseWithChildren, he', hs, Bool.false_and, Bool.false_eq_true, if_false, Option.getD_none]
            rw [r2, r3.solve]
            ring
          · simp only [collapseWithChildren, he', Bool.false_eq_true, if_false, hown]
            exact CollapsedMargin.is_new mb
    | some h =>
      have he' : S.endCollapses = false := by
        rw [he]
        simp
      refine fits_mk (B := .gap pt :: .gap h :: gapUnless below pb) ?_ hst (fun h => (hno h).elim)
        (fun _ => ⟨hth, fun s y hy => ?_⟩)
      · simp only [VBox.items, hab, hbe, gapUnless]
        simp
      · rw [hrun s y _ hy]
        refine ⟨?_, ?_, hdr s y _ hy⟩
        · cases below with
          | true =>
            rw [hpb rfl]
            simp [gapUnless, State.run, State.step, joint_nil]
            ring
          | false =>
            simp [gapUnless, State.run, State.step, joint_nil]
            ring
        · simp only [collapseWithChildren, he', Bool.false_eq_true, if_false, hown]
          cases below <;> exact CollapsedMargin.is_new mb
  | true =>
    have hpt := hpt rfl
    have hstart := hc.start rfl
    have hgap : gapUnless true pt = [] := rfl
    have hrun : ∀ s : State, s.run (.margin mt :: gapUnless (!root && pt == 0) pt) = ⟨s.pos, s.pend ++ [mt]⟩ := by
      intro s
      rw [hab]
      rfl
    have hsol : K.all Item.isMargin = false ∨ K.all Item.isMargin = true := by
      cases K.all Item.isMargin <;> simp
    have hst : (collapseWithChildren S fc).1.start.Is (mt :: leading K) := by
      simp only [collapseWithChildren, hown, hs, if_true]
      have h1 := (CollapsedMargin.is_new mt).adjoin hstart
      split
      · rename_i ht
        rcases hsol with hk | hk
        · rw [(hc.solid rfl hk).1] at ht
          cases ht
        · rw [(hc.flat rfl hk).2.1]
          have := h1.adjoin CollapsedMargin.is_zero
          rwa [List.append_nil] at this
      · exact h1
    have hdr : ∀ (s : State) (y : Length), y = s.pos + jointMargin (s.pend ++ mt :: leading K) →
        drawn (y + pt) = edgesOf false (s.run (.margin mt :: gapUnless (!root && pt == 0) pt))
        (if !root && pt == 0 then some y else none) kids := by
      intro s y hy
      rw [hrun, hab, hpt, add_zero]
      rcases hsol with hk | hk
      · refine ((hc.solid rfl hk).2 y ⟨s.pos, s.pend ++ [mt]⟩ ?_).1
        simpa using hy
      · exact (hc.flat rfl hk).2.2.2 _ y
    cases height with
    | none =>
      cases below with
      | true =>
        have he' : S.endCollapses = true := he
        refine fits_mk (B := K) ?_ hst (fun hk => ?_) (fun hk => ?_)
        · have hK' := hK rfl
          cases lines <;> simp only [contentItems] at hK' <;> simp [VBox.items, hab, hbe, gapUnless, hK']
        · obtain ⟨r1, r2, r3, r4⟩ := hc.flat rfl hk
          simp only [collapseWithChildren, hs, he', r1, r3, hpt, hpb, Bool.true_and, if_true, hown]
          refine ⟨trivial, by simp, ?_, fun s y => ?_⟩
          · have := (CollapsedMargin.is_new mb).adjoin CollapsedMargin.is_zero
            rwa [List.append_nil] at this
          · rw [hpt] at hrun hab
            rw [hrun, hab, add_zero]
            exact r4 _ y
        · obtain ⟨r1, r2⟩ := hc.solid rfl hk
          refine ⟨by simp only [collapseWithChildren, r1, Bool.and_false], fun s y hy => ?_⟩
          obtain ⟨u1, u2, u3⟩ := r2 y ⟨s.pos, s.pend ++ [mt]⟩ (by simpa using hy)
          refine ⟨?_, ?_, hdr s y hy⟩
          · rw [u2, hpt, hpb rfl]
            simp only [collapseWithChildren, he', if_true, Option.getD_none]
            ring
          · simp only [collapseWithChildren, he', r1, Bool.and_false, Bool.false_eq_true, if_false, if_true, hown]
            exact (CollapsedMargin.is_new mb).adjoin' u3
      | false =>
        have he' : S.endCollapses = false := he
        have hth : (collapseWithChildren S fc).1.collapsedThrough = false := by
          simp only [collapseWithChildren, he', Bool.false_and, Bool.and_false]
        have hend : (collapseWithChildren S fc).1.«end» = .new mb := by
          simp only [collapseWithChildren, he', Bool.false_eq_true, if_false, hown]
        have hl : leading (K ++ [.gap pb]) = leading K := by
          rcases hsol with hk | hk
          · exact leading_append_gap hk _
          · rw [leading_append_margins hk]
            simp [leading]
        refine fits_mk (B := K ++ [.gap pb]) ?_ (by rw [hl]; exact hst)
          (fun hk => absurd hk (by simp [Item.isMargin])) (fun _ => ⟨hth, fun s y hy => ?_⟩)
        · have hK' := hK rfl
          cases lines <;> simp only [contentItems] at hK' <;> simp [VBox.items, hab, hbe, gapUnless, hK']
        · rw [hl] at hy
          rw [run_append, hend]
          refine ⟨?_, CollapsedMargin.is_new mb, hdr s y hy⟩
          show (State.run _ K).pos + jointMargin (State.run _ K).pend + pb = _
          rcases hsol with hk | hk
          · obtain ⟨r1, r2⟩ := hc.solid rfl hk
            obtain ⟨u1, u2, u3⟩ := r2 y ⟨s.pos, s.pend ++ [mt]⟩ (by simpa using hy)
            simp only [collapseWithChildren, he', r1, Bool.and_false, Bool.false_eq_true, if_false, Option.getD_none]
            rw [u2, u3.solve, hpt]
            ring
          · obtain ⟨r1, r2, r3, r4⟩ := hc.flat rfl hk
            simp only [collapseWithChildren, he', hs, r1, r3, Bool.and_true, Bool.false_eq_true, if_false, if_true,
              Option.getD_none, solve_zero]
            have : (State.mk s.pos (s.pend ++ [mt])).run K = ⟨s.pos, s.pend ++ [mt] ++ leading K⟩ := by
              conv_lhs => rw [margins_eq hk, run_margins]
            rw [this, hy, hpt]
            simp
    | some h =>
      have he' : S.endCollapses = false := by
        rw [he]
        simp
      have hth : (collapseWithChildren S fc).1.collapsedThrough = false := by
        simp only [collapseWithChildren, he', Bool.false_and, Bool.and_false]
      have hend : (collapseWithChildren S fc).1.«end» = .new mb := by
        simp only [collapseWithChildren, he', Bool.false_eq_true, if_false, hown]
      have hl : leading ((leading K).map .margin ++ .gap h :: gapUnless below pb) = leading K := by
        rw [leading_margins]
        simp [leading]
      refine fits_mk (B := (leading K).map .margin ++ .gap h :: gapUnless below pb) ?_ (by rw [hl]; exact hst)
        (fun hk => absurd hk (by simp [Item.isMargin])) (fun _ => ⟨hth, fun s y hy => ?_⟩)
      · cases lines <;> simp only [contentItems] at hL <;> simp [VBox.items, hab, hbe, gapUnless, hL]
      · rw [hl] at hy
        rw [run_append, run_margins, hend]
        refine ⟨?_, ?_, hdr s y hy⟩
        · cases below with
          | true =>
            rw [hpb rfl, hpt, hy]
            simp [gapUnless, State.run, State.step]
          | false =>
            rw [hpt, hy]
            simp [gapUnless, State.run, State.step, joint_nil]
            ring
        · cases below <;> exact CollapsedMargin.is_new mb

end Sinab.Vertical
