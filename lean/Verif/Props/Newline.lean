import Verif.Lemmas.Newline
import Verif.Spec.Newline
import Verif.Props.Composed

/-! A forced line break starts a new line (C100). -/

namespace Sinab

open Sinab.Append Vertical

/-! ## Paragraphs in blocks -/

/-- no margins are collapsed with those of the content, but those that are 0 -/
def CollapsedBlockMargins.Flat (m : CollapsedBlockMargins) : Prop := m.start = .zero ∧ m.«end» = .zero

theorem zero_adjoin_zero : CollapsedMargin.zero.adjoin .zero = .zero := by
  decide +kernel

theorem addBlock_zero (r : Rect Length) : r.addBlock 0 = r := by
  obtain ⟨⟨a, b⟩, s⟩ := r
  simp [Rect.addBlock]

theorem place_flat {coll : Bool} {s : Style} {g : BoxGeom} {m : CollapsedBlockMargins} {cs : List Fragment} {f' : Fragment}
    {st' : PlacementState} (hm : m.Flat) (h : placeFragment (.start coll) (.box s g m cs) = .ok (f', st')) :
    f' = .box s g m cs ∧ st'.startMargin = .zero ∧ st'.currentMargin = .zero := by
  obtain ⟨through, ms, me⟩ := m
  obtain ⟨rfl, rfl⟩ : ms = .zero ∧ me = .zero := hm
  have hz : CollapsedMargin.zero.solve = 0 := by decide +kernel
  cases coll <;> cases through <;>
    simp only [placeFragment, PlacementState.start, zero_adjoin_zero, hz, ne_eq, not_true_eq_false, if_true, if_false,
      Bool.false_eq_true, add_zero, addBlock_zero] at h <;> cases h <;> exact ⟨rfl, rfl, rfl⟩

/-- the only block in a block -/
theorem only_flat {boxL : BoxLayout} {cb : ContainingBlock} {b : BlockLevelBox} {rank : Nat}
    {out : List AbsFragment} {floats coll : Bool} {fc : FlowChildren}
    (h : layoutBlockLevelChildren boxL [b] cb rank [] floats coll = .ok (fc, out)) :
    ∃ f o fl, boxL b cb 0 [] fl = .ok (f, o) ∧ (o = [] → out = []) ∧
      ∀ s g m cs, f = .box s g m cs → m.Flat → fc.fragments = [f] ∧ fc.margins.Flat := by
  obtain ⟨⟨fs', a, st⟩, e1, h⟩ := bind_eq_ok.1 h
  obtain ⟨adj, h2, h⟩ := bind_eq_ok.1 h
  cases h
  cases floats with
  | true =>
    obtain ⟨⟨f, a'⟩, k1, e1⟩ := bind_eq_ok.1 e1
    obtain ⟨⟨f', st1⟩, k2, e1⟩ := bind_eq_ok.1 e1
    cases e1
    refine ⟨f, _, _, k1, ?_, ?_⟩
    · rintro rfl
      cases h2
      rfl
    · rintro s g m cs rfl hm
      obtain ⟨rfl, k3⟩ := place_flat hm k2
      exact ⟨rfl, k3⟩
  | false =>
    obtain ⟨⟨fs, a1⟩, e2, e1⟩ := bind_eq_ok.1 e1
    obtain ⟨⟨fs1, st1⟩, e3, e1⟩ := bind_eq_ok.1 e1
    cases e1
    obtain ⟨⟨f, a'⟩, k1, e2⟩ := bind_eq_ok.1 e2
    cases e2
    obtain ⟨⟨f', st1⟩, k2, e3⟩ := bind_eq_ok.1 e3
    cases e3
    refine ⟨f, _, _, k1, ?_, ?_⟩
    · rintro rfl
      cases h2
      rfl
    · rintro s g m cs rfl hm
      obtain ⟨rfl, k3⟩ := place_flat hm k2
      exact ⟨rfl, k3⟩

theorem frameless_edges {s : Style} (hs : s.Frameless) (cb : ContainingBlock) (kind : BlockLevelKind) :
    (inFlowSizes cb s kind).padding = ⟨0, 0, 0, 0⟩ ∧ (inFlowSizes cb s kind).border = ⟨0, 0, 0, 0⟩ ∧
      (inFlowSizes cb s kind).margin = ⟨0, 0, 0, 0⟩ := by
  have h := frameless_sizes hs cb
  exact ⟨(congrArg InFlowSizes.padding h : _), (congrArg InFlowSizes.border h : _), (congrArg InFlowSizes.margin h : _)⟩

theorem inFlow_flat {absL : AbsLayout} {cb : ContainingBlock} {abs : List AbsFragment} {s : Style} (hs : s.Frameless)
    {kind : BlockLevelKind} {contents} {f : Fragment} {out : List AbsFragment}
    (h : layoutInFlow absL cb abs s kind contents = .ok (f, out)) :
    ∃ fc g m, contents ⟨cb.inlineSize, .auto, s.writingMode⟩ abs
        (inFlowSizes cb s kind).startCollapses = .ok (fc, out) ∧ f = .box s g m fc.fragments ∧
      g.border = ⟨0, 0, 0, 0⟩ ∧ g.contentRect.startCorner = ⟨0, 0⟩ ∧ (fc.margins.Flat → m.Flat) := by
  have hp : Position.isRelativelyPositioned (s.val .position) = false := by
    have := hs.position
    revert this
    generalize s.val .position = p
    cases p <;> simp [Position.isRelativelyPositioned]
  obtain ⟨p1, p2, p3⟩ := frameless_edges hs cb kind
  have hsz := frameless_sizes hs cb
  have hw : (inFlowSizes cb s kind).inlineSize = cb.inlineSize := (congrArg InFlowSizes.inlineSize hsz : _)
  have hb : (inFlowSizes cb s kind).blockSize = .auto := (congrArg InFlowSizes.blockSize hsz : _)
  unfold layoutInFlow at h
  simp only at h
  split at h
  · cases h
  · obtain ⟨⟨fc', o'⟩, k0, h⟩ := bind_eq_ok.1 h
    obtain ⟨children, k1, h⟩ := bind_eq_ok.1 h
    simp only [hp, Bool.false_eq_true, if_false] at k0 k1 h
    cases k1
    cases h
    rw [hw, hb] at k0
    refine ⟨fc', _, _, k0, rfl, p2, ?_, ?_⟩
    · have hr : relativeAdjustement s (inFlowSizes cb s kind).inlineSize (inFlowSizes cb s kind).blockSize = ⟨0, 0⟩ := by
        simp [relativeAdjustement, hp, Vec2.zero]
      have ha : (⟨0, 0, 0, 0⟩ : Sides Length) + ⟨0, 0, 0, 0⟩ = ⟨0, 0, 0, 0⟩ := by decide +kernel
      simp only [hr, InFlowSizes.pb, p1, p2, p3, ha, add_zero]
    · intro hm
      obtain ⟨h1, h2⟩ := hm
      have ho : CollapsedBlockMargins.fromMargin (⟨0, 0, 0, 0⟩ : Sides Length) = ⟨false, .zero, .zero⟩ := by decide +kernel
      simp only [collapseWithChildren, p3, ho, h1, h2, zero_adjoin_zero, ite_self]
      exact ⟨rfl, rfl⟩

/-- What is seen of `fs` is what is seen of `gs`. -/
def ShowsSame (gs fs : List Fragment) : Prop :=
  linesHeightAll fs = linesHeightAll gs ∧ (uprightAll fs → uprightAll gs ∧ ∀ o, (callsAt o fs).filter DrawCall.isMark = (callsAt o gs).filter DrawCall.isMark)

theorem ShowsSame.self (fs : List Fragment) : ShowsSame fs fs := ⟨rfl, fun hu => ⟨hu, fun _ => rfl⟩⟩

theorem ShowsSame.box {gs cs : List Fragment} (h : ShowsSame gs cs) {s : Style}
    (hs : s.Frameless) {g : BoxGeom} (hg : g.border = ⟨0, 0, 0, 0⟩) (hx : g.contentRect.startCorner = ⟨0, 0⟩)
    (m : CollapsedBlockMargins) : ShowsSame gs [.box s g m cs] := by
  refine ⟨by simpa [linesHeightAll, Fragment.linesHeight] using h.1, fun hu => ?_⟩
  have hc : uprightAll cs := hu.1
  obtain ⟨h1, h2⟩ := h.2 hc
  refine ⟨h1, fun o => ?_⟩
  have : o + (Fragment.box s g m cs).offset = o := by
    simp [pvec2_add, Fragment.offset, hx]
  rw [callsAt_box o hc, List.filter_append, frameless_unseen isMark_eye hs hg, this, h2]
  rfl

/-- a paragraph that is the only thing to see in some contents -/
theorem text_shown (E : TextEnv) {ps : Style} {bs : List InlineLevelBox} {w : Bool} {c : BlockContainer}
    (h : OnlyText ps bs w c) (ha : inlineAbsBoxes bs = []) :
    ∀ (n : Nat) (cb : ContainingBlock) (rank : Nat) (out : List AbsFragment)
      (fl coll : Bool) (fc : FlowChildren), cb.mode = (.horizontalTb, .ltr) → c.sound → c.depth ≤ n →
      containerLayout E (boxLayout E n) c cb rank [] fl coll = .ok (fc, out) →
      out = [] ∧ fc.margins.Flat ∧
        ShowsSame (placeLines E ⟨cb.inlineSize, if w then .auto else cb.blockSize, (.horizontalTb, .ltr)⟩
          (ps.val .textAlign) (E.font ps) 0 (inlineLines E cb.inlineSize bs 0)) fc.fragments := by
  induction h with
  | here =>
    intro n cb rank out fl coll fc hcb hs hd hl
    have hn := found_nothing (container_finds (c := .inlineFormattingContext ps bs) (boxFinds E _) hs hl)
      (by simpa [BlockContainer.held] using ha)
    obtain ⟨L, new, -, ⟨-, rfl, -⟩, h2⟩ := ifcLayout_lines E ps bs cb rank [] (inlineSound_absOk bs hs)
    have hl' : ifcLayout E ps bs cb rank [] = .ok (fc, out) := hl
    rw [h2] at hl'
    cases hl'
    refine ⟨hn, ⟨rfl, rfl⟩, ?_⟩
    have : (⟨cb.inlineSize, if false then .auto else cb.blockSize, (.horizontalTb, .ltr)⟩ : ContainingBlock) = cb := by
      rw [← hcb]
      rfl
    exact this ▸ ShowsSame.self _
  | same w s c hs h ih =>
    intro n cb rank out fl coll fc hcb hso hd hl
    obtain ⟨f, o, fl', e2, e3, e1⟩ := only_flat hl
    have hm : BlockLevelBox.sameFormattingContextBlock s c ∈ [BlockLevelBox.sameFormattingContextBlock s c] := by simp
    have hd' := (blockDepth_mem hm).trans hd
    cases n with
    | zero => simp [BlockLevelBox.depth] at hd'
    | succ n =>
      rw [boxLayout] at e2
      simp only [boxLayoutWith] at e2
      obtain ⟨fc', g, m, e4, rfl, hg, hx, hf⟩ := inFlow_flat hs e2
      simp only [BlockLevelBox.depth] at hd'
      obtain ⟨h0, k1, k2⟩ := ih n _ _ _ _ _ _ (by rfl) hso.1 (by omega) e4
      obtain ⟨e5, e6⟩ := e1 _ _ _ _ rfl (hf k1)
      refine ⟨e3 h0, e6, ?_⟩
      rw [e5]
      simp only [ite_self] at k2
      exact k2.box hs hg hx m
  | independent w s c floats hs h ih =>
    intro n cb rank out fl coll fc hcb hso hd hl
    obtain ⟨f, o, fl', e2, e3, e1⟩ := only_flat hl
    have hm : BlockLevelBox.independent s (.mk c floats) ∈ [BlockLevelBox.independent s (.mk c floats)] := by simp
    have hd' := (blockDepth_mem hm).trans hd
    cases n with
    | zero => simp [BlockLevelBox.depth] at hd'
    | succ n =>
      rw [boxLayout] at e2
      simp only [boxLayoutWith] at e2
      obtain ⟨fc', g, m, e4, rfl, hg, hx, hf⟩ := inFlow_flat hs e2
      obtain ⟨⟨fc1, a1⟩, e5, e4⟩ := bind_eq_ok.1 e4
      cases e4
      simp only [BlockLevelBox.depth, Bfc.depth] at hd'
      obtain ⟨h0, k1, k2⟩ := ih n _ _ _ _ _ _ (by rfl) hso.1 (by omega) e5
      obtain ⟨e7, e6⟩ := e1 _ _ _ _ rfl (hf ⟨k1.1, rfl⟩)
      refine ⟨e3 h0, e6, ?_⟩
      rw [e7]
      simp only [ite_self] at k2
      exact k2.box hs hg hx m

/-- a page with nothing to see but a paragraph -/
theorem page_text (E : TextEnv) {ps : Style} {bs : List InlineLevelBox} {w : Bool} {c : BlockContainer}
    (h : OnlyText ps bs w c) (ha : inlineAbsBoxes bs = []) {floats : Bool} {size : PVec2 Length} {fs : List Fragment}
    (hs : c.sound) (hf : rootLayout E (.mk c floats) size = .ok fs) :
    ∃ gs, gs = placeLines E ⟨size.x, if w then .auto else .length size.y, (.horizontalTb, .ltr)⟩ (ps.val .textAlign)
        (E.font ps) 0 (inlineLines E size.x bs 0) ∧ uprightAll gs ∧
      (paintPage size fs).calls.filter DrawCall.isMark = (callsAt ⟨0, 0⟩ gs).filter DrawCall.isMark ∧
      linesHeightAll fs = linesHeightAll gs := by
  have hu := rootLayout_up hf
  obtain ⟨⟨fc, abs⟩, h1, hf⟩ := bind_eq_ok.1 hf
  obtain ⟨more, h3, hf⟩ := bind_eq_ok.1 hf
  cases hf
  obtain ⟨⟨fc0, abs0⟩, h2, h1⟩ := bind_eq_ok.1 h1
  cases h1
  obtain ⟨rfl, -, k⟩ := text_shown E h ha _ _ _ _ _ _ _ (by rfl) hs le_rfl h2
  cases h3
  rw [List.append_nil] at hu ⊢
  obtain ⟨k1, k2⟩ := k.2 hu
  refine ⟨_, rfl, k1, ?_, k.1⟩
  rw [paintPage, callsAt_own ⟨0, 0⟩ hu _ rfl]
  exact k2 ⟨0, 0⟩

theorem linesHeight_place (E : TextEnv) (cb : ContainingBlock) (al : TextAlign) (root : Font) : ∀ (L : List Line) (y : ℚ),
    linesHeightAll (placeLines E cb al root y L) = pageHeight E root L
  | [], _ => rfl
  | l :: L, y => by
    simp only [placeLines, linesHeightAll, Fragment.linesHeight, linesHeight_place E cb al root L]
    simp [pageHeight]

/-- the empty line behind a newline at the end of a paragraph -/
theorem blank_line (E : TextEnv) (cb : ContainingBlock) (al : TextAlign) (root : Font) (st : Style) (f : Font) (y : ℚ)
    (o : PVec2 Length) : lineHeight E root [.text st f [] false] = 0 ∧
      (uprightAll (placeLines E cb al root y [[.text st f [] false]]) →
        (callsAt o (placeLines E cb al root y [[.text st f [] false]])).filter DrawCall.isMark = []) := by
  constructor
  · simp [lineHeight, lineAscent, lineDescent, extents, Item.extents, maxAll]
  · intro hu
    simp only [placeLines, place, Item.place, if_true, List.append_nil, List.map_nil]
    have hm : cb.mode = (.horizontalTb, .ltr) := hu.1.1
    rw [hm, callsAt, paintAll, paintAll, paint_anonymous, paintAll]
    simp [Trace.andThen, Trace.done, ownCalls, DrawCall.isMark]

variable {E : TextEnv} {ps st : Style} {A B : List InlineLevelBox} {t X : Text} {f : Font} {size : PVec2 Length}
  {fs fs1 fs2 : List Fragment}

/-- the lines of a paragraph with a newline, as they are drawn -/
theorem newline_calls (E : TextEnv) (cb : ContainingBlock) (al : TextAlign) (root : Font) (A B : List InlineLevelBox)
    (X : Text) (h1 : TextFits E cb.inlineSize st f t) :
    ∃ d, d = pageHeight E root (inlineLines E cb.inlineSize (A ++ [.textRun st (t ++ ['\n']) f]) 0) ∧ ∀ o,
      uprightAll (placeLines E cb al root 0 (inlineLines E cb.inlineSize (A ++ [.textRun st (t ++ ['\n']) f]) 0)) →
      uprightAll (placeLines E cb al root 0 (inlineLines E cb.inlineSize (.textRun st X f :: B) 0)) →
      (callsAt o (placeLines E cb al root 0 (inlineLines E cb.inlineSize (A ++ .textRun st (t ++ '\n' :: X) f :: B) 0))).filter
          DrawCall.isMark =
        (callsAt o (placeLines E cb al root 0 (inlineLines E cb.inlineSize (A ++ [.textRun st (t ++ ['\n']) f]) 0))).filter
          DrawCall.isMark ++
        ((callsAt o (placeLines E cb al root 0 (inlineLines E cb.inlineSize (.textRun st X f :: B) 0))).filter
          DrawCall.isMark).map (DrawCall.move ⟨0, d⟩) := by
  obtain ⟨P, hP, h⟩ := inlineLines_newline E cb.inlineSize st f t h1 A 0
  refine ⟨_, rfl, fun o u1 u2 => ?_⟩
  -- lines with nothing on them
  have hz : ∀ (Z : List Line), Z = [] ∨ Z = [[Item.text st f [] false]] → pageHeight E root Z = 0 ∧
      ∀ y, uprightAll (placeLines E cb al root y Z) → (callsAt o (placeLines E cb al root y Z)).filter DrawCall.isMark = [] := by
    rintro Z (rfl | rfl)
    · exact ⟨rfl, fun y _ => rfl⟩
    · exact ⟨by simp [pageHeight, (blank_line E cb al root st f 0 o).1], fun y => (blank_line E cb al root st f y o).2⟩
  have hp : ∀ Z : List Line, pageHeight E root Z = 0 → pageHeight E root (P ++ Z) = pageHeight E root P := by
    intro Z h
    simp only [pageHeight, List.map_append, List.sum_append] at h ⊢
    rw [h, add_zero]
  obtain ⟨Z0, M0, a1, a2, a3⟩ := h [] []
  rw [inlineLines_blank] at a2
  obtain ⟨M0z, M0m⟩ : pageHeight E root M0 = 0 ∧ ∀ y, uprightAll (placeLines E cb al root y M0) →
      (callsAt o (placeLines E cb al root y M0)).filter DrawCall.isMark = [] := by
    apply hz
    rcases a3 with rfl | rfl
    · exact .inr a2.symm
    · left
      simpa using a2.symm
  obtain ⟨Z, M, b1, b2, b3⟩ := h X B
  obtain ⟨c1, c2⟩ := hz Z b3
  rw [a1, placeLines_append, uprightAll_app] at u1
  rw [b2, placeLines_append, uprightAll_app, c1, add_zero] at u2
  rw [a1, b1, b2, hp M0 M0z, placeLines_append, placeLines_append, placeLines_append, placeLines_down, c1, add_zero,
    callsAt_append o _ _ u1.1, callsAt_append o _ _ u1.1, callsAt_append o _ _ u2.1, callsAt_allDown o _ _ u2.2,
    List.filter_append, List.filter_append, List.filter_append, M0m _ u1.2, c2 _ u2.1, filter_move isMark_eye,
    List.append_nil, List.nil_append]

/-- C100: the text in front of a newline in a paragraph, the newline, and what follows it: what is drawn is what is drawn
for a paragraph that ends with the newline, then what is drawn for a paragraph with what follows the newline, lower by the
height of the lines of the first.  (No word in front of the newline is too long for a line, if lines are broken there, and
nothing in the paragraph is absolutely positioned.)  The paragraphs may be in blocks without frame. -/
theorem C100_newline_partial (E : TextEnv) {ps st : Style} {A B : List InlineLevelBox} {t X : Text} {f : Font}
    {size : PVec2 Length} {w fl fl1 fl2 : Bool} {c c1 c2 : BlockContainer} {fs fs1 fs2 : List Fragment}
    (h1 : TextFits E size.x st f t)
    (hA : inlineSound A ∧ inlineAbsBoxes A = []) (hB : inlineSound B ∧ inlineAbsBoxes B = [])
    (hc : OnlyText ps (A ++ .textRun st (t ++ '\n' :: X) f :: B) w c)
    (hc1 : OnlyText ps (A ++ [.textRun st (t ++ ['\n']) f]) w c1)
    (hc2 : OnlyText ps (.textRun st X f :: B) w c2)
    (hf : rootLayout E (.mk c fl) size = .ok fs) (hf1 : rootLayout E (.mk c1 fl1) size = .ok fs1)
    (hf2 : rootLayout E (.mk c2 fl2) size = .ok fs2) :
    (paintPage size fs).calls.filter DrawCall.isMark = (paintPage size fs1).calls.filter DrawCall.isMark ++
      ((paintPage size fs2).calls.filter DrawCall.isMark).map (DrawCall.move ⟨0, linesHeightAll fs1⟩) := by
  have s1 : ∀ (t : Text) (A B : List InlineLevelBox), inlineSound A → inlineSound B →
      inlineSound (A ++ .textRun st t f :: B) := by
    intro t A B hA hB
    induction A with
    | nil => exact ⟨trivial, hB⟩
    | cons a A ih => exact ⟨hA.1, ih hA.2⟩
  have s2 : ∀ (t : Text) (A B : List InlineLevelBox), inlineAbsBoxes A = [] → inlineAbsBoxes B = [] →
      inlineAbsBoxes (A ++ .textRun st t f :: B) = [] := by
    intro t A B hA hB
    induction A with
    | nil => simpa [inlineAbsBoxes, InlineLevelBox.absBoxes] using hB
    | cons a A ih =>
      simp only [inlineAbsBoxes, List.append_eq_nil_iff, List.cons_append] at hA ⊢
      exact ⟨hA.1, ih hA.2⟩
  have s3 : ∀ {bs : List InlineLevelBox} {w : Bool} {c : BlockContainer}, OnlyText ps bs w c → inlineSound bs → c.sound := by
    intro bs w c h hs
    induction h with
    | here => exact hs
    | same w s c _ _ ih => exact ⟨ih, trivial⟩
    | independent w s c floats _ _ ih => exact ⟨ih, trivial⟩
  obtain ⟨gs, rfl, u, k, -⟩ := page_text E hc (s2 _ _ _ hA.2 hB.2) (s3 hc (s1 _ _ _ hA.1 hB.1)) hf
  obtain ⟨gs1, rfl, u1, k1, l1⟩ := page_text E hc1 (s2 _ _ _ hA.2 rfl) (s3 hc1 (s1 _ _ _ hA.1 trivial)) hf1
  obtain ⟨gs2, rfl, u2, k2, -⟩ := page_text E hc2 (s2 X [] B rfl hB.2) (s3 hc2 (s1 X [] B trivial hB.1)) hf2
  rw [k, k1, k2, l1, linesHeight_place]
  obtain ⟨d, rfl, h⟩ := newline_calls E ⟨size.x, if w then .auto else .length size.y, (.horizontalTb, .ltr)⟩
    (ps.val .textAlign) (E.font ps) A B X h1
  exact h _ u1 u2

/-! ## Documents -/

theorem containerOf_content (C : BoxContext) {p : Style} {L : List Styled} {bs : List InlineLevelBox}
    (hL : (containerOf C p L).1 = .inlineFormattingContext p bs) {st : Style} {cs : List Styled}
    (h : ContentText p L st cs) : ∃ w, OnlyText p bs w (containerOf C st cs).1 := by
  induction h with
  | here => exact ⟨false, hL ▸ .here⟩
  | inside st id s ins cs hs ho h ih =>
    obtain ⟨w, ih⟩ := ih
    rw [containerOf_only C st ho]
    cases ins with
    | flow => exact ⟨true, .same w s _ hs ih⟩
    | flowRoot => exact ⟨true, .independent w s _ _ hs ih⟩

theorem textInto_line (C : BoxContext) (s : Style) (t : Text) {boxes : List InlineLevelBox} (hf : filledAll boxes = true)
    (hg : atGap (inlineText boxes) = true) (ht : startText s t ≠ []) :
    textInto C s t boxes = appendText C s (startText s t) boxes := by
  rw [textInto_eq C s t hf, contribution, hg, addRun]
  exact if_neg ht

theorem line_boxes (C : BoxContext) {p s sb : Style} {t t' : Text} (hb : sb.keepsSpace = true) (ht : startText s t ≠ [])
    (ht' : startText s t' ≠ []) :
    (containerOf C p [.text s t, .text sb ['\n'], .text s t']).1 =
      .inlineFormattingContext p [.textRun s (startText s t ++ '\n' :: startText s t') (C.fontOf s)] ∧
    (containerOf C p [.text s t, .text sb ['\n']]).1 =
      .inlineFormattingContext p [.textRun s (startText s t ++ ['\n']) (C.fontOf s)] ∧
    (containerOf C p [.text s t']).1 =
      .inlineFormattingContext p [.textRun s (startText s t') (C.fontOf s)] := by
  have h1 : ∀ t, startText s t ≠ [] → textInto C s t [] = [.textRun s (startText s t) (C.fontOf s)] := by
    intro t ht
    rw [textInto_line C s t rfl rfl ht]
    rfl
  have h2 : textInto C sb ['\n'] [.textRun s (startText s t) (C.fontOf s)] =
      [.textRun s (startText s t ++ ['\n']) (C.fontOf s)] := by
    obtain ⟨g, h⟩ := textInto_any C sb ['\n'] [.textRun s (startText s t) (C.fontOf s)]
    rw [h, if_pos hb]
    rfl
  have h3 : textInto C s t' [.textRun s (startText s t ++ ['\n']) (C.fontOf s)] =
      [.textRun s (startText s t ++ '\n' :: startText s t') (C.fontOf s)] := by
    rw [textInto_line C s t' (by simp [filledAll, InlineLevelBox.filled])
      (by simp [inlineText, InlineLevelBox.text, atGap, htmlSpace]) ht']
    simp [appendText]
  refine ⟨?_, ?_, ?_⟩ <;> unfold containerOf <;> rw [container_eq] <;>
    simp [putAll, Styled.put, Flow.empty, h1 _ ht, h1 _ ht', h2, h3, boxesOf]

/-- the box tree of a page on which there is nothing to see but the content `L` of an element -/
theorem page_content {E : TextEnv} {C : BoxContext} {kids : NodeId → List NodeId} {st : Style} {cs : List Styled} {b : Bfc}
    {size : PVec2 Length} {fs : List Fragment} (h : Page C E kids st cs b size fs) (ho : st.outOfFlow = false)
    (hs : st.Frameless) {p : Style} {L : List Styled} (hL : ContentText p L st (unwrapAll cs)) {bs : List InlineLevelBox}
    (hb : ∀ C : BoxContext, C.fontOf = E.font → (containerOf C p L).1 = .inlineFormattingContext p bs) :
    ∃ c fl, OnlyText p bs true c ∧ rootLayout E (.mk c fl) size = .ok fs := by
  obtain ⟨root, hr, hid, hst, hsh⟩ := h.content
  obtain ⟨n, hbx⟩ := h.boxes
  obtain ⟨-, e1⟩ := boxTree_eq h.forest hr hid hst h.shown ho hsh hbx
  have hC : C.fontOf = E.font := by
    obtain ⟨_, _, _, _, _, _, rfl⟩ := h.context
    rfl
  obtain ⟨w, g1⟩ := containerOf_content C (hb C hC) hL
  rw [← containerOf_unwrap rfl] at g1
  have hfs := h.laidOut
  subst e1
  exact ⟨_, _, .independent w _ _ _ hs g1, hfs⟩

/-- C100 for documents: if there is nothing to see in a document but a text, a line break element and another text, then
what is seen of it is what is seen of a document with the first text and the line break element, and below it what is seen
of a document with the second text. -/
theorem C100_document_partial {E : TextEnv} {C C1 C2 : BoxContext} {kids kids1 kids2 : NodeId → List NodeId}
    {st st1 st2 : Style} {cs cs1 cs2 : List Styled} {b b1 b2 : Bfc} {size : PVec2 Length} {fs fs1 fs2 : List Fragment}
    (h : Page C E kids st cs b size fs) (h1 : Page C1 E kids1 st1 cs1 b1 size fs1)
    (h2 : Page C2 E kids2 st2 cs2 b2 size fs2)
    (ho : st.outOfFlow = false ∧ st1.outOfFlow = false ∧ st2.outOfFlow = false)
    (hs : st.Frameless ∧ st1.Frameless ∧ st2.Frameless) {p s sb : Style} {t t' : Text} (hb : sb.keepsSpace = true)
    (hc : ContentText p [.text s t, .text sb ['\n'], .text s t'] st (unwrapAll cs))
    (hc1 : ContentText p [.text s t, .text sb ['\n']] st1 (unwrapAll cs1))
    (hc2 : ContentText p [.text s t'] st2 (unwrapAll cs2))
    (ht : startText s t ≠ []) (ht' : startText s t' ≠ [])
    (k1 : TextFits E size.x s (E.font s) (startText s t)) :
    (paintPage size fs).calls.filter DrawCall.isMark = (paintPage size fs1).calls.filter DrawCall.isMark ++
      ((paintPage size fs2).calls.filter DrawCall.isMark).map (DrawCall.move ⟨0, linesHeightAll fs1⟩) := by
  have hl : ∀ C : BoxContext, C.fontOf = E.font → _ := fun C hC => hC ▸ line_boxes C (p := p) hb ht ht'
  obtain ⟨c, fl, g, hf⟩ := page_content h ho.1 hs.1 hc fun C hC => (hl C hC).1
  obtain ⟨c1, fl1, g1, hf1⟩ := page_content h1 ho.2.1 hs.2.1 hc1 fun C hC => (hl C hC).2.1
  obtain ⟨c2, fl2, g2, hf2⟩ := page_content h2 ho.2.2 hs.2.2 hc2 fun C hC => (hl C hC).2.2
  exact C100_newline_partial E (A := []) (B := []) k1 ⟨trivial, rfl⟩ ⟨trivial, rfl⟩ g g1 g2 hf hf1 hf2

/-! ## Examples -/

/-- C100 in full: also if a word in front of the newline is too long for a line -/
def C100_full : Prop :=
  ∀ (E : TextEnv) (ps st : Style) (A B : List InlineLevelBox) (t X : Text) (f : Font) (size : PVec2 Length)
    (fs fs1 fs2 : List Fragment), inlineSound A ∧ inlineAbsBoxes A = [] → inlineSound B ∧ inlineAbsBoxes B = [] →
    rootLayout E (.mk (.inlineFormattingContext ps (A ++ .textRun st (t ++ '\n' :: X) f :: B)) false) size = .ok fs →
    rootLayout E (.mk (.inlineFormattingContext ps (A ++ [.textRun st (t ++ ['\n']) f])) false) size = .ok fs1 →
    rootLayout E (.mk (.inlineFormattingContext ps (.textRun st X f :: B)) false) size = .ok fs2 →
    (paintPage size fs).calls.filter DrawCall.isMark = (paintPage size fs1).calls.filter DrawCall.isMark ++
      ((paintPage size fs2).calls.filter DrawCall.isMark).map (DrawCall.move ⟨0, linesHeightAll fs1⟩)

/-- an element with text in which lines are not broken -/
def newlineNext : InlineLevelBox :=
  .inlineBox plainStyle true true
    [.textRun (plainStyle.set .whiteSpace WhiteSpace.nowrap) "xy".toList (blockEnv.font plainStyle)]

/-- how far to the right texts are -/
def textLefts (l : List DrawCall) : List Length :=
  l.filterMap fun
    | .text _ x _ _ _ => some x
    | _ => none

theorem textLefts_move (d : Length) : ∀ l : List DrawCall, textLefts (l.map (DrawCall.move ⟨0, d⟩)) = textLefts l
  | [] => rfl
  | c :: l => by
    have := textLefts_move d l
    unfold textLefts at this ⊢
    cases c <;> simp [DrawCall.move, this]

/-- what is drawn for a paragraph -/
def newlineDrawn (bs : List InlineLevelBox) : List DrawCall :=
  match rootLayout blockEnv (.mk (.inlineFormattingContext plainStyle bs) false) ⟨35, 50⟩ with
  | .ok fs => (paintPage ⟨35, 50⟩ fs).calls.filter DrawCall.isMark
  | .error _ => []

/-- C100 in full is false: behind a word that is too long for a line the line break is lost, and what follows it is on
the same line. -/
theorem C100_full_false : ¬ C100_full := by
  intro h
  have e0 : textLefts (newlineDrawn [appendWords "abcdef\n", newlineNext]) = [0, 60] := by decide +kernel
  have e1 : textLefts (newlineDrawn [appendWords "abcdef\n"]) = [0] := by decide +kernel
  have e2 : textLefts (newlineDrawn [appendWords "", newlineNext]) = [0] := by decide +kernel
  unfold newlineDrawn at e0 e1 e2
  split at e0
  case h_2 => cases e0
  rename_i fs hfs
  split at e1
  case h_2 => cases e1
  rename_i fs1 hfs1
  split at e2
  case h_2 => cases e2
  rename_i fs2 hfs2
  have := h blockEnv plainStyle plainStyle [] [newlineNext] "abcdef".toList [] (blockEnv.font plainStyle) ⟨35, 50⟩ fs fs1 fs2
    ⟨trivial, rfl⟩ ⟨by simp [inlineSound, newlineNext, InlineLevelBox.sound], by
      simp [inlineAbsBoxes, newlineNext, InlineLevelBox.absBoxes]⟩ hfs hfs1 hfs2
  have := congrArg textLefts this
  rw [e0, textLefts, List.filterMap_append] at this
  have e3 := textLefts_move (linesHeightAll fs1) ((paintPage ⟨35, 50⟩ fs2).calls.filter DrawCall.isMark)
  rw [e2] at e3
  unfold textLefts at e1 e3
  rw [e1, e3] at this
  revert this
  decide

/-- the words fit on lines of width 35 -/
example : TextFits blockEnv 35 plainStyle (blockEnv.font plainStyle) "ab cd".toList := by
  intro _ a u b e hu
  have hlen : u.length ≤ 3 := by
    by_contra hlt
    have hl := congrArg List.length e
    have h5 : "ab cd".toList.length = 5 := by decide
    rw [h5] at hl
    simp only [List.length_append] at hl
    have hmem : ' ' ∈ u := by
      have h2 : ("ab cd".toList)[2]? = some ' ' := by decide
      rw [e, List.append_assoc, List.getElem?_append_right (by omega),
        List.getElem?_append_left (by omega)] at h2
      exact List.mem_of_getElem? h2
    exact hu ' ' hmem (.inl rfl)
  show (10 : ℚ) * (u.length : ℚ) ≤ 35
  have : (u.length : ℚ) ≤ 3 := by exact_mod_cast hlen
  linarith

/-- the paragraph, its first part, its second part -/
example : writtenAt ⟨35, 50⟩ (.inlineFormattingContext plainStyle [appendWords "ab cd\nef"]) =
      [("ab", 0, 68 / 5), ("cd", 0, 164 / 5), ("ef", 0, 52)] ∧
    writtenAt ⟨35, 50⟩ (.inlineFormattingContext plainStyle [appendWords "ab cd\n"]) =
      [("ab", 0, 68 / 5), ("cd", 0, 164 / 5)] ∧
    writtenAt ⟨35, 50⟩ (.inlineFormattingContext plainStyle [appendWords "ef"]) = [("ef", 0, 68 / 5)] := by
  decide +kernel

/-- a document with a line break element, and documents with its parts -/
def newlineDoc : Doc := pageOf [.node "p" [.text "ab cd", .node "br" [], .text "ef"]]

/-- the part with the line break element -/
def newlineDoc1 : Doc := pageOf [.node "p" [.text "ab cd", .node "br" []]]

/-- the part behind it -/
def newlineDoc2 : Doc := pageOf [.node "p" [.text "ef"]]

/-- the style of the line break element -/
def newlineStyle : Style := grownInline.set .whiteSpace WhiteSpace.pre

/-- the page with this content -/
def newlineBody (cs : List Styled) : List Styled :=
  [.elem 0 (pageStyle grownFrom) .block .flow [.elem 0 (pageStyle grownFrom) .block .flow cs]]

theorem newlineDoc_content : unwrapAll (rootContent newlineDoc) =
    newlineBody [groupedText "ab cd", .text newlineStyle ['\n'], groupedText "ef"] := by
  apply sameAll_eq
  decide +kernel

theorem newlineDoc1_content : unwrapAll (rootContent newlineDoc1) =
    newlineBody [groupedText "ab cd", .text newlineStyle ['\n']] := by
  apply sameAll_eq
  decide +kernel

theorem newlineDoc2_content : unwrapAll (rootContent newlineDoc2) = newlineBody [groupedText "ef"] := by
  apply sameAll_eq
  decide +kernel

example : rootCheck newlineDoc = true ∧ rootCheck newlineDoc1 = true ∧ rootCheck newlineDoc2 = true ∧
    newlineStyle.keepsSpace = true ∧ startText (pageStyle grownFrom) "ab cd".toList = "ab cd".toList := by decide +kernel

example : ContentText (pageStyle grownFrom) [groupedText "ab cd", .text newlineStyle ['\n'], groupedText "ef"]
      (rootStyle newlineDoc) (unwrapAll (rootContent newlineDoc)) ∧
    ContentText (pageStyle grownFrom) [groupedText "ab cd", .text newlineStyle ['\n']]
      (rootStyle newlineDoc1) (unwrapAll (rootContent newlineDoc1)) ∧
    ContentText (pageStyle grownFrom) [groupedText "ef"] (rootStyle newlineDoc2) (unwrapAll (rootContent newlineDoc2)) := by
  rw [newlineDoc_content, newlineDoc1_content, newlineDoc2_content]
  have ho : (pageStyle grownFrom).outOfFlow = false := by decide +kernel
  have hs : (pageStyle grownFrom).Frameless := by constructor <;> decide +kernel
  exact ⟨.inside _ _ _ _ _ hs ho (.inside _ _ _ _ _ hs ho .here), .inside _ _ _ _ _ hs ho (.inside _ _ _ _ _ hs ho .here),
    .inside _ _ _ _ _ hs ho (.inside _ _ _ _ _ hs ho .here)⟩

/-- the document, with its second part below the first -/
example : pageAt newlineDoc1 35 = some [("ab", 0, 68 / 5), ("cd", 0, 164 / 5)] ∧
    pageAt newlineDoc2 35 = some [("ef", 0, 68 / 5)] ∧
    pageAt newlineDoc 35 = some [("ab", 0, 68 / 5), ("cd", 0, 164 / 5), ("ef", 0, 52)] := by decide +kernel

end Sinab
