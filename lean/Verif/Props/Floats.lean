import Verif.Lemmas.FloatMarks
import Verif.Spec.Floats
import Verif.Props.Positioned

/-! Floats (C45): layout does not depend on them. -/

namespace Sinab

/-- an absolutely positioned box whose contents have no traces of floats -/
def AbsFragment.noFloats (a : AbsFragment) : AbsFragment := { a with contents := a.contents.noFloats }

/-! ## Soundness is preserved -/

mutual

theorem BlockContainer.noFloats_sound : ∀ c : BlockContainer, c.sound → c.noFloats.sound
  | .blockLevelBoxes boxes, h => by
    simp only [BlockContainer.noFloats, BlockContainer.sound] at h ⊢
    exact blockNoFloats_sound boxes h
  | .inlineFormattingContext _ boxes, h => by
    simp only [BlockContainer.noFloats, BlockContainer.sound] at h ⊢
    exact inlineNoFloats_sound boxes h

theorem Bfc.noFloats_sound : ∀ c : Bfc, c.sound → c.noFloats.sound
  | .mk c _, h => by
    simp only [Bfc.noFloats, Bfc.sound] at h ⊢
    exact c.noFloats_sound h

theorem BlockLevelBox.noFloats_sound : ∀ b : BlockLevelBox, b.sound → b.noFloats.sound
  | .sameFormattingContextBlock _ c, h => by
    simp only [BlockLevelBox.noFloats, BlockLevelBox.sound] at h ⊢
    exact c.noFloats_sound h
  | .outOfFlowAbsolutelyPositionedBox _ c, h => by
    simp only [BlockLevelBox.noFloats, BlockLevelBox.sound] at h ⊢
    exact c.noFloats_sound h
  | .outOfFlowFloatBox _ _, _ => by
    simp [BlockLevelBox.noFloats, BlockLevelBox.sound, Bfc.sound, BlockContainer.sound, blockSound]
  | .independent _ c, h => by
    simp only [BlockLevelBox.noFloats, BlockLevelBox.sound] at h ⊢
    exact c.noFloats_sound h

theorem blockNoFloats_sound : ∀ bs : List BlockLevelBox, blockSound bs → blockSound (blockNoFloats bs)
  | [], _ => by simp [blockNoFloats, blockSound]
  | b :: bs, h => by
    simp only [blockNoFloats, blockSound] at h ⊢
    exact ⟨b.noFloats_sound h.1, blockNoFloats_sound bs h.2⟩

theorem inlineNoFloats_sound : ∀ bs : List InlineLevelBox, inlineSound bs →
    inlineSound (inlineNoFloats bs)
  | [], _ => by simp [inlineNoFloats, inlineSound]
  | .inlineBox _ _ _ children :: bs, h => by
    simp only [inlineNoFloats, inlineSound, InlineLevelBox.sound] at h ⊢
    exact ⟨inlineNoFloats_sound children h.1, inlineNoFloats_sound bs h.2⟩
  | .textRun .. :: bs, h => by
    simp only [inlineNoFloats, inlineSound, InlineLevelBox.sound] at h ⊢
    exact ⟨trivial, inlineNoFloats_sound bs h.2⟩
  | .outOfFlowAbsolutelyPositionedBox _ c :: bs, h => by
    simp only [inlineNoFloats, inlineSound, InlineLevelBox.sound] at h ⊢
    exact ⟨⟨h.1.1, c.noFloats_sound h.1.2⟩, inlineNoFloats_sound bs h.2⟩
  | .outOfFlowFloatBox _ _ :: bs, h => by
    simp only [inlineNoFloats, inlineSound] at h ⊢
    exact inlineNoFloats_sound bs h.2

end

/-! ## Inline content -/

theorem endPos_empty (E : TextEnv) (w x : ℚ) : endPos E w x [[]] = x := rfl

theorem inlineLines_ne_nil (E : TextEnv) (w : ℚ) : ∀ (bs : List InlineLevelBox) (x : ℚ),
    inlineLines E w bs x ≠ []
  | [], _ => by simp [inlineLines]
  | b :: bs, x => by
    rw [inlineLines]
    have h := inlineLines_ne_nil E w bs (endPos E w x (b.linesOf E w x))
    generalize b.linesOf E w x = A at h
    generalize inlineLines E w bs (endPos E w x A) = B at h
    cases A with
    | nil => exact h
    | cons a A =>
      cases A with
      | nil => cases B <;> simp [joinLines]
      | cons a' A => simp [joinLines]

theorem inlineLines_noFloats (E : TextEnv) (w : ℚ) : ∀ (bs : List InlineLevelBox) (x : ℚ),
    inlineLines E w (inlineNoFloats bs) x = inlineLines E w bs x
  | [], _ => by simp [inlineNoFloats]
  | .inlineBox st f l children :: bs, x => by
    simp only [inlineNoFloats, inlineLines, InlineLevelBox.linesOf, inlineLines_noFloats E w children,
      inlineLines_noFloats E w bs]
  | .textRun .. :: bs, x => by
    simp only [inlineNoFloats, inlineLines, InlineLevelBox.linesOf, inlineLines_noFloats E w bs]
  | .outOfFlowAbsolutelyPositionedBox _ c :: bs, x => by
    simp only [inlineNoFloats, inlineLines, InlineLevelBox.linesOf, inlineLines_noFloats E w bs]
  | .outOfFlowFloatBox _ _ :: bs, x => by
    simp only [inlineNoFloats, inlineLines, InlineLevelBox.linesOf, endPos_empty]
    rw [joinLines_nil_left _ (inlineLines_ne_nil E w bs x), inlineLines_noFloats E w bs]

theorem inlineFound_noFloats (E : TextEnv) (w : ℚ) (root : Font) (rank : Nat) :
    ∀ (bs : List InlineLevelBox) (G G' : Ghost), G'.erase = G.erase →
    inlineFound E w root rank (inlineNoFloats bs) G' =
      (inlineFound E w root rank bs G).map AbsFragment.noFloats
  | [], _, _, _ => by simp [inlineNoFloats, inlineFound]
  | .inlineBox st f l children :: bs, G, G', h => by
    have hp : G'.pos E w root = G.pos E w root := by rw [← G'.pos_erase, h, G.pos_erase]
    simp only [inlineNoFloats, inlineFound, InlineLevelBox.found, List.map_append, InlineLevelBox.linesOf,
      inlineLines_noFloats]
    rw [inlineFound_noFloats E w root rank children ((G.setRem bs).start st f l children) _ ?_,
      inlineFound_noFloats E w root rank bs ((G.setRem bs).extend _) _ ?_]
    · rw [Ghost.extend_erase, Ghost.extend_erase, hp]
      exact congrArg (fun g => Ghost.extend g _) h
    · simp only [Ghost.erase, Ghost.mk.injEq, and_true] at h
      obtain ⟨h1, h2, h3⟩ := h
      simp only [Ghost.start, Ghost.erase, Ghost.setRem, List.map_cons, h1, h2, h3]
      rfl
  | .textRun st t font :: bs, G, G', h => by
    have hp : G'.pos E w root = G.pos E w root := by rw [← G'.pos_erase, h, G.pos_erase]
    simp only [inlineNoFloats, inlineFound, InlineLevelBox.found, List.nil_append]
    refine inlineFound_noFloats E w root rank bs _ _ ?_
    rw [Ghost.extend_erase, Ghost.extend_erase, hp]
    exact congrArg (fun g => Ghost.extend g _) h
  | .outOfFlowAbsolutelyPositionedBox st c :: bs, G, G', h => by
    have hp : G'.pos E w root = G.pos E w root := by rw [← G'.pos_erase, h, G.pos_erase]
    have hc : G'.corner E w root st = G.corner E w root st := by
      rw [← G'.corner_erase, h, G.corner_erase]
    have hc1 : ∀ r, (G'.setRem r).corner E w root st = G'.corner E w root st := fun _ => rfl
    have hc2 : ∀ r, (G.setRem r).corner E w root st = G.corner E w root st := fun _ => rfl
    simp only [inlineNoFloats, inlineFound, InlineLevelBox.found, List.map_append, InlineLevelBox.linesOf,
      Ghost.extend_empty, hc1, hc2, hc]
    rw [inlineFound_noFloats E w root rank bs (G.setRem bs) _ (by exact h)]
    rfl
  | .outOfFlowFloatBox _ _ :: bs, G, G', h => by
    simp only [inlineNoFloats, inlineFound, InlineLevelBox.found, InlineLevelBox.linesOf,
      Ghost.extend_empty, List.nil_append]
    exact inlineFound_noFloats E w root rank bs (G.setRem bs) G' h

/-! ## Both layouts -/

/-- absolutely positioned boxes that can be laid out, also without floats -/
def BothReady (n m rank : Nat) (new : List AbsFragment) : Prop :=
  AbsReady n rank new ∧ AbsReady m rank (new.map AbsFragment.noFloats)

/-- `boxL` and, without floats, `boxL'` give the same -/
def SameBoxes (n m : Nat) (boxL boxL' : BoxLayout) : Prop :=
  ∀ b cb rank, BlockLevelBox.sound b → b.depth ≤ n → b.noFloats.depth ≤ m →
    ContainingBlock.standard cb →
    ∃ f new, (∀ abs fl, boxL b cb rank abs fl = .ok (f, abs ++ new)) ∧
      (∀ abs fl, boxL' b.noFloats cb rank abs fl = .ok (f, abs ++ new.map AbsFragment.noFloats)) ∧
      (∃ c, IsChild f c) ∧ BothReady n m rank new

/-- `absL` and, without floats, `absL'` give the same -/
def SameAbs (n m : Nat) (absL absL' : AbsLayout) : Prop :=
  ∀ (a : AbsFragment) (cb : DefiniteContainingBlock), a.contents.sound → a.contents.depth + 1 ≤ n →
    a.contents.noFloats.depth + 1 ≤ m →
    cb.mode = (.horizontalTb, .ltr) → ∃ f, absL a cb = .ok f ∧ absL' a.noFloats cb = .ok f

theorem sameLaidOut {n m : Nat} {boxL boxL' : BoxLayout} (hb : SameBoxes n m boxL boxL')
    {cb : ContainingBlock} (hcb : cb.standard) : ∀ (bs : List BlockLevelBox) (k : Nat), blockSound bs →
    blockDepth bs ≤ n → blockDepth (blockNoFloats bs) ≤ m →
    ∃ fs new cs, LaidOut boxL cb k bs fs new ∧
      LaidOut boxL' cb k (blockNoFloats bs) fs (new.map AbsFragment.noFloats) ∧
      List.Forall₂ IsChild fs cs ∧
      ∀ a ∈ new, a.treeRank < k + bs.length ∧ (a.contents.sound ∧ a.contents.depth + 1 ≤ n) ∧
        (a.contents.noFloats.sound ∧ a.contents.noFloats.depth + 1 ≤ m) := by
  intro bs
  induction bs with
  | nil => intro k _ _ _; exact ⟨[], [], [], .nil, .nil, .nil, by simp⟩
  | cons b bs ih =>
    intro k hs hd hd'
    simp only [blockNoFloats, blockDepth, max_le_iff] at hd hd'
    obtain ⟨f, new, h1, h1', ⟨c, h2⟩, h3, h3'⟩ := hb b cb k hs.1 hd.1 hd'.1 hcb
    obtain ⟨fs, news, cs, h4, h4', h5, h6⟩ := ih (k + 1) hs.2 hd.2 hd'.2
    refine ⟨f :: fs, new ++ news, c :: cs, .cons h1 h4, ?_, .cons h2 h5, ?_⟩
    · rw [List.map_append]
      exact .cons h1' h4'
    · intro a ha
      simp only [List.length_cons]
      rcases List.mem_append.1 ha with ha | ha
      · have e1 := h3 a ha
        have e2 := h3' _ (List.mem_map_of_mem ha)
        exact ⟨by have := e1.1; omega, e1.2, e2.2⟩
      · have := h6 a ha
        exact ⟨by omega, this.2⟩

theorem sameContainer (E : TextEnv) {n m : Nat} {boxL boxL' : BoxLayout}
    (hb : SameBoxes n m boxL boxL') {cb : ContainingBlock} (hcb : cb.standard) (c : BlockContainer)
    (hs : c.sound) (hd : c.depth ≤ n) (hd' : c.noFloats.depth ≤ m) (rank : Nat) (coll : Bool) :
    ∃ fc new, (∀ abs fl, containerLayout E boxL c cb rank abs fl coll = .ok (fc, abs ++ new)) ∧
      (∀ abs fl, containerLayout E boxL' c.noFloats cb rank abs fl coll =
        .ok (fc, abs ++ new.map AbsFragment.noFloats)) ∧
      BothReady n m rank new ∧ fc.margins.Good := by
  cases c with
  | blockLevelBoxes bs =>
    simp only [BlockContainer.noFloats, BlockContainer.depth] at hd hd'
    obtain ⟨fs, new, cs, h1, h1', h2, h3⟩ := sameLaidOut hb hcb bs 0 hs hd hd'
    obtain ⟨ds, st', h4, h5, h6, _⟩ := placeAll_spec h2 (PlacedInv.init coll) trivial
    have hlen : (moveAll fs ds).length = bs.length := by rw [moveAll_length h4, h1.length]
    have hadj := adjustStaticPositions_ok (moveAll_notText h2 ds) rank new (fun a ha => by
      have := (h3 a ha).1; omega)
    have hadj' := adjustStaticPositions_ok (moveAll_notText h2 ds) rank (new.map AbsFragment.noFloats)
      (fun a ha => by
        obtain ⟨b, hb', rfl⟩ := List.mem_map.1 ha
        have := (h3 b hb').1
        show b.treeRank < _
        omega)
    have key : ∀ {boxL : BoxLayout} {bs new adj}, LaidOut boxL cb 0 bs fs new →
        adjustStaticPositions (moveAll fs ds) rank new = .ok adj → ∀ abs fl,
        layoutBlockLevelChildren boxL bs cb rank abs fl coll =
          .ok (⟨moveAll fs ds, st'.position, ⟨st'.collapses, st'.startMargin, st'.currentMargin⟩⟩,
            abs ++ adj) := by
      intro boxL bs new adj h1 hadj abs fl
      unfold layoutBlockLevelChildren
      cases fl with
      | true =>
        simp only [if_true, h1.layoutAndPlaceEach abs h5, bind, Except.bind]
        rw [List.drop_left, hadj]
        simp [pure, Except.pure]
      | false =>
        simp only [Bool.false_eq_true, if_false, h1.layoutEach abs, bind, Except.bind, h5, pure,
          Except.pure]
        rw [List.drop_left, hadj]
        simp
    refine ⟨_, _, key h1 hadj, fun abs fl => ?_, ⟨?_, ?_⟩, ?_⟩
    · have := key h1' hadj' abs fl
      simp only [List.map_map] at this ⊢
      exact this
    · intro a ha
      obtain ⟨b, hb', rfl⟩ := List.mem_map.1 ha
      exact ⟨rfl, (h3 b hb').2.1⟩
    · intro a ha
      rw [List.map_map] at ha
      obtain ⟨b, hb', rfl⟩ := List.mem_map.1 ha
      exact ⟨rfl, (h3 b hb').2.2⟩
    · refine ⟨⟨_, h6.start⟩, ?_⟩
      cases h : st'.collapses with
      | true =>
        refine ⟨[], ?_⟩
        show st'.currentMargin.Is []
        rw [h6.current h]
        exact CollapsedMargin.is_zero
      | false => exact ⟨_, h6.tail h⟩
  | inlineFormattingContext st bs =>
    simp only [BlockContainer.noFloats, BlockContainer.depth] at hd hd'
    have hs' : inlineSound (inlineNoFloats bs) := inlineNoFloats_sound bs hs
    obtain ⟨_, new, _, h1, h2, _⟩ := ifcLayout_good E st bs cb rank hs
    obtain ⟨_, new', _, h1', h2', _⟩ := ifcLayout_good E st (inlineNoFloats bs) cb rank hs'
    obtain ⟨L, N, _, ⟨_, e1, e2⟩, e3⟩ := ifcLayout_lines E st bs cb rank [] (inlineSound_absOk _ hs)
    obtain ⟨L', N', _, ⟨_, e1', e2'⟩, e3'⟩ := ifcLayout_lines E st (inlineNoFloats bs) cb rank []
      (inlineSound_absOk _ hs')
    rw [inlineLines_noFloats, ← e1] at e1'
    rw [inlineFound_noFloats E _ _ _ bs ⟨[], [], [], bs⟩ ⟨[], [], [], inlineNoFloats bs⟩ rfl, ← e2] at e2'
    subst e1' e2'
    have hN : new = N := by
      have := (h1 []).symm.trans e3
      simp only [List.nil_append, Except.ok.injEq, Prod.mk.injEq] at this
      exact this.2
    have hN' : new' = N.map AbsFragment.noFloats := by
      have := (h1' []).symm.trans e3'
      simp only [List.nil_append, Except.ok.injEq, Prod.mk.injEq] at this
      exact this.2
    subst hN hN'
    refine ⟨⟨placeLines E cb (st.val .textAlign) (E.font st) 0 L', pageHeight E (E.font st) L', .zero⟩,
      new, fun abs _ => ?_, fun abs _ => ?_, ⟨h2.mono hd, h2'.mono hd'⟩, zero_good⟩
    · rw [containerLayout, ifcLayout_abs, e3]
      rfl
    · rw [BlockContainer.noFloats, containerLayout, ifcLayout_abs, e3']
      rfl

theorem sameBfc (E : TextEnv) {n m : Nat} {boxL boxL' : BoxLayout}
    (hb : SameBoxes n m boxL boxL') {cb : ContainingBlock} (hcb : cb.standard) (c : Bfc)
    (hs : c.sound) (hd : c.depth ≤ n) (hd' : c.noFloats.depth ≤ m) (rank : Nat) :
    ∃ fc new, (∀ abs, bfcLayout E boxL c cb rank abs = .ok (fc, abs ++ new)) ∧
      (∀ abs, bfcLayout E boxL' c.noFloats cb rank abs =
        .ok (fc, abs ++ new.map AbsFragment.noFloats)) ∧
      BothReady n m rank new ∧ fc.margins.Good := by
  obtain ⟨c, fl⟩ := c
  simp only [Bfc.noFloats, Bfc.depth] at hd hd'
  obtain ⟨fc, new, h1, h1', h2, h3⟩ := sameContainer E hb hcb c hs hd hd' rank false
  refine ⟨⟨fc.fragments, fc.blockSize + fc.margins.«end».solve, ⟨false, fc.margins.start, .zero⟩⟩,
    new, fun abs => ?_, fun abs => ?_, h2, h3.1, ⟨[], CollapsedMargin.is_zero⟩⟩
  · simp only [bfcLayout, Bfc.contents, Bfc.containsFloats, h1, bind, Except.bind, pure, Except.pure]
  · simp only [Bfc.noFloats, bfcLayout, Bfc.contents, Bfc.containsFloats, h1', bind, Except.bind, pure,
      Except.pure]

theorem sameAbsEach {n m : Nat} {absL absL' : AbsLayout} (ha : SameAbs n m absL absL')
    {cb : DefiniteContainingBlock} (hcb : cb.mode = (.horizontalTb, .ltr)) {rank : Nat} :
    ∀ (as : List AbsFragment), BothReady n m rank as →
      ∃ fs, layoutAbsEach absL cb as = .ok fs ∧
        layoutAbsEach absL' cb (as.map AbsFragment.noFloats) = .ok fs := by
  intro as
  induction as with
  | nil => intro _; exact ⟨[], rfl, rfl⟩
  | cons a as ih =>
    intro h
    have h0 := h.1 a (by simp)
    have h0' := h.2 a.noFloats (by simp)
    obtain ⟨f, h1, h1'⟩ := ha a cb h0.2.1 h0.2.2 h0'.2.2 hcb
    obtain ⟨fs, h2, h2'⟩ := ih ⟨fun b hb => h.1 b (by simp [hb]), fun b hb => h.2 b (by
      rw [List.map_cons]; exact List.mem_cons_of_mem _ hb)⟩
    exact ⟨f :: fs, by simp [layoutAbsEach, h1, h2, bind, Except.bind, pure, Except.pure],
      by simp [layoutAbsEach, h1', h2', bind, Except.bind, pure, Except.pure]⟩

theorem samePositioned {n m : Nat} {absL absL' : AbsLayout} (ha : SameAbs n m absL absL') {rank : Nat}
    (as : List AbsFragment) (h : BothReady n m rank as) (fs : List Fragment) (size : Vec2 Length)
    (padding : Sides Length) :
    ∃ out, inPositionedContainingBlock absL as fs size padding (.horizontalTb, .ltr) = .ok out ∧
      inPositionedContainingBlock absL' (as.map AbsFragment.noFloats) fs size padding
        (.horizontalTb, .ltr) = .ok out := by
  unfold inPositionedContainingBlock
  cases as with
  | nil => exact ⟨fs, rfl, rfl⟩
  | cons a as =>
    obtain ⟨gs, h1, h2⟩ := sameAbsEach ha (cb := ⟨((Rect.mk Vec2.zero size).inflate padding).size,
      (.horizontalTb, .ltr)⟩) rfl (a :: as) h
    rw [List.map_cons] at h2 ⊢
    exact ⟨_, by simp only [h1, bind, Except.bind, pure, Except.pure, List.isEmpty_cons,
      Bool.false_eq_true, if_false]; rfl, by simp only [h2, bind, Except.bind, pure, Except.pure,
      List.isEmpty_cons, Bool.false_eq_true, if_false]⟩

/-- the geometry of an in-flow box -/
def inFlowGeom (cb : ContainingBlock) (style : Style) (kind : BlockLevelKind) (fc : FlowChildren) :
    BoxGeom :=
  let s := inFlowSizes cb style kind
  let adj := relativeAdjustement style s.inlineSize s.blockSize
  ⟨⟨⟨s.pb.inlineStart + adj.inline + s.margin.inlineStart, s.pb.blockStart + adj.block⟩,
    ⟨s.inlineSize, s.blockSize.autoIs (collapseWithChildren s fc).2⟩⟩, s.padding, s.border, s.margin⟩

theorem sameInFlow {n m : Nat} {absL absL' : AbsLayout} (ha : SameAbs n m absL absL')
    {cb : ContainingBlock} (hcb : cb.standard) (style : Style) (kind : BlockLevelKind) (rank : Nat)
    {fc : FlowChildren} {new : List AbsFragment} (hr : BothReady n m rank new) :
    ∃ g children out, BothReady n m rank out ∧
      (∀ contents, (∀ abs, contents ⟨(inFlowSizes cb style kind).inlineSize,
        (inFlowSizes cb style kind).blockSize, (.horizontalTb, .ltr)⟩ abs
        (inFlowSizes cb style kind).startCollapses = .ok (fc, abs ++ new)) →
        ∀ abs, layoutInFlow absL cb abs style kind contents = .ok (.box style g
          (collapseWithChildren (inFlowSizes cb style kind) fc).1 children, abs ++ out)) ∧
      (∀ contents, (∀ abs, contents ⟨(inFlowSizes cb style kind).inlineSize,
        (inFlowSizes cb style kind).blockSize, (.horizontalTb, .ltr)⟩ abs
        (inFlowSizes cb style kind).startCollapses =
          .ok (fc, abs ++ new.map AbsFragment.noFloats)) →
        ∀ abs, layoutInFlow absL' cb abs style kind contents = .ok (.box style g
          (collapseWithChildren (inFlowSizes cb style kind) fc).1 children,
          abs ++ out.map AbsFragment.noFloats)) := by
  have hm : ¬ (cb.mode ≠ (.horizontalTb, .ltr)) := by
    rw [not_not]; exact hcb
  have hcb' : (Style.writingMode style) = (.horizontalTb, .ltr) := rfl
  cases hp : Position.isRelativelyPositioned (style.val .position) with
  | false =>
    refine ⟨inFlowGeom cb style kind fc, fc.fragments, new, hr, fun contents hc abs => ?_,
      fun contents hc abs => ?_⟩
    · unfold layoutInFlow
      simp only [hcb', hp, Bool.false_eq_true, if_false, hc, bind, Except.bind, pure, Except.pure]
      rw [if_neg hm]
      rfl
    · unfold layoutInFlow
      simp only [hcb', hp, Bool.false_eq_true, if_false, hc, bind, Except.bind, pure, Except.pure]
      rw [if_neg hm]
      rfl
  | true =>
    obtain ⟨children, h1, h2⟩ := samePositioned ha new hr fc.fragments
      ⟨(inFlowSizes cb style kind).inlineSize,
        (inFlowSizes cb style kind).blockSize.autoIs (collapseWithChildren (inFlowSizes cb style kind) fc).2⟩
      (inFlowSizes cb style kind).padding
    refine ⟨inFlowGeom cb style kind fc, children, [], by simp [BothReady, AbsReady],
      fun contents hc abs => ?_, fun contents hc abs => ?_⟩
    · unfold layoutInFlow
      simp only [hcb', hp, if_true, hc, bind, Except.bind, pure, Except.pure, List.nil_append,
        List.append_nil, h1]
      rw [if_neg hm]
      rfl
    · unfold layoutInFlow
      simp only [hcb', hp, if_true, hc, bind, Except.bind, pure, Except.pure, List.nil_append,
        List.append_nil, h2, List.map_nil]
      rw [if_neg hm]
      rfl

theorem BothReady.mono {n m rank : Nat} {a : List AbsFragment} (h : BothReady n m rank a) :
    BothReady (n + 1) (m + 1) rank a :=
  ⟨h.1.mono (Nat.le_succ n), h.2.mono (Nat.le_succ m)⟩

theorem sameBoxLayout (E : TextEnv) {n m : Nat} {boxL boxL' : BoxLayout} {absL absL' : AbsLayout}
    (hb : SameBoxes n m boxL boxL') (ha : SameAbs n m absL absL') :
    SameBoxes (n + 1) (m + 1) (boxLayoutWith E boxL absL) (boxLayoutWith E boxL' absL') := by
  intro b cb rank hs hd hd' hcb
  cases b with
  | sameFormattingContextBlock st c =>
    simp only [BlockLevelBox.noFloats, BlockLevelBox.depth] at hd hd'
    obtain ⟨fc, new, h1, h1', h2, h3⟩ := sameContainer E hb
      (cb := ⟨(inFlowSizes cb st .sameFormattingContextBlock).inlineSize,
        (inFlowSizes cb st .sameFormattingContextBlock).blockSize, (.horizontalTb, .ltr)⟩) rfl c hs
      (by omega) (by omega) rank (inFlowSizes cb st .sameFormattingContextBlock).startCollapses
    obtain ⟨g, children, out, h4, h5, h6⟩ := sameInFlow ha hcb st .sameFormattingContextBlock rank (fc := fc) h2
    exact ⟨.box st g (collapseWithChildren (inFlowSizes cb st .sameFormattingContextBlock) fc).1 children,
      out,
      fun abs fl => h5 (fun cb nested coll => containerLayout E boxL c cb rank nested fl coll)
        (fun abs => h1 abs fl) abs,
      fun abs fl => h6 (fun cb nested coll => containerLayout E boxL' c.noFloats cb rank nested fl coll)
        (fun abs => h1' abs fl) abs,
      isChild_of_good _ _ _ _ (collapse_good _ _ h3), h4.mono⟩
  | independent st c =>
    simp only [BlockLevelBox.noFloats, BlockLevelBox.depth] at hd hd'
    obtain ⟨fc, new, h1, h1', h2, h3⟩ := sameBfc E hb
      (cb := ⟨(inFlowSizes cb st .establishesAnIndependentFormattingContext).inlineSize,
        (inFlowSizes cb st .establishesAnIndependentFormattingContext).blockSize,
        (.horizontalTb, .ltr)⟩) rfl c hs (by omega) (by omega) rank
    obtain ⟨g, children, out, h4, h5, h6⟩ :=
      sameInFlow ha hcb st .establishesAnIndependentFormattingContext rank (fc := fc) h2
    exact ⟨.box st g (collapseWithChildren
        (inFlowSizes cb st .establishesAnIndependentFormattingContext) fc).1 children, out,
      fun abs fl => h5 (fun cb nested _ => bfcLayout E boxL c cb rank nested) h1 abs,
      fun abs fl => h6 (fun cb nested _ => bfcLayout E boxL' c.noFloats cb rank nested) h1' abs,
      isChild_of_good _ _ _ _ (collapse_good _ _ h3), h4.mono⟩
  | outOfFlowAbsolutelyPositionedBox st c =>
    refine ⟨Fragment.noOp cb.mode, [layoutAbsBox st c Vec2.zero rank], fun abs fl => rfl,
      fun abs fl => rfl, ⟨none, .out rfl⟩, ?_, ?_⟩
    · intro a ha
      rw [List.mem_singleton] at ha
      subst ha
      exact ⟨rfl, hs, hd⟩
    · intro a ha
      rw [List.map_singleton, List.mem_singleton] at ha
      subst ha
      exact ⟨rfl, c.noFloats_sound hs, hd'⟩
  | outOfFlowFloatBox st c =>
    exact ⟨Fragment.noOp cb.mode, [], fun abs fl => by simp [boxLayoutWith],
      fun abs fl => by simp [BlockLevelBox.noFloats, boxLayoutWith], ⟨none, .out rfl⟩,
      by simp [BothReady, AbsReady]⟩

theorem sameAbsLayout (E : TextEnv) {n m : Nat} {boxL boxL' : BoxLayout} {absL absL' : AbsLayout}
    (hb : SameBoxes n m boxL boxL') (ha : SameAbs n m absL absL') :
    SameAbs (n + 1) (m + 1) (absLayoutWith E boxL absL) (absLayoutWith E boxL' absL') := by
  intro a cb hs hd hd' hcb
  obtain ⟨fc, new, h1, h1', h2, h3⟩ := sameBfc E hb
    (cb := ⟨(absSizes a cb).inlineSize, (absSizes a cb).blockSize, (.horizontalTb, .ltr)⟩) rfl
    a.contents hs (by omega) (by omega) 0
  obtain ⟨out, h4, h4'⟩ := samePositioned ha new h2 fc.fragments
    ((absSizes a cb).contentRect cb ((absSizes a cb).blockSize.autoIs fc.blockSize)).size
    (absSizes a cb).padding
  have hm : ¬ (cb.mode ≠ (.horizontalTb, .ltr)) := by rw [not_not]; exact hcb
  have hcb' : (Style.writingMode a.style) = (.horizontalTb, .ltr) := rfl
  have hsz : absSizes a.noFloats cb = absSizes a cb := rfl
  have hst : a.noFloats.style = a.style := rfl
  have hct : a.noFloats.contents = a.contents.noFloats := rfl
  refine ⟨.box a.style ⟨(absSizes a cb).contentRect cb ((absSizes a cb).blockSize.autoIs fc.blockSize),
    (absSizes a cb).padding, (absSizes a cb).border, (absSizes a cb).margin⟩ .zero out, ?_, ?_⟩
  · unfold absLayoutWith
    simp only [hcb', h1, bind, Except.bind, List.nil_append, h4, pure, Except.pure]
    rw [if_neg hm]
  · unfold absLayoutWith
    simp only [hsz, hst, hct, hcb', h1', bind, Except.bind, List.nil_append, h4', pure, Except.pure]
    rw [if_neg hm]

theorem same_layout (E : TextEnv) : ∀ n m, SameBoxes n m (boxLayout E n) (boxLayout E m) ∧
    SameAbs n m (absLayout E n) (absLayout E m) := by
  intro n
  induction n with
  | zero =>
    intro m
    constructor
    · intro b cb rank _ hd
      cases b <;> simp [BlockLevelBox.depth] at hd
    · intro a cb _ hd
      omega
  | succ n ih =>
    intro m
    cases m with
    | zero =>
      constructor
      · intro b cb rank _ _ hd
        cases b <;> simp [BlockLevelBox.depth, BlockLevelBox.noFloats] at hd
      · intro a cb _ _ hd
        omega
    | succ m =>
      rw [boxLayout, absLayout, boxLayout, absLayout]
      exact ⟨sameBoxLayout E (ih m).1 (ih m).2, sameAbsLayout E (ih m).1 (ih m).2⟩

/-! ## C45 -/

/-- C45: a box tree is laid out exactly as the tree without traces of floats: without marks
for containing floats, without inline-level floats, and with empty block-level floats. -/
theorem C45_without_floats (E : TextEnv) (root : Bfc) (hs : root.sound) (viewport : PVec2 Length) :
    rootLayout E root.noFloats viewport = rootLayout E root viewport := by
  have hsame := same_layout E root.depth root.noFloats.depth
  obtain ⟨fc, new, h1, h1', h2, _⟩ := sameBfc E hsame.1
    (cb := ⟨viewport.x, .length viewport.y, (.horizontalTb, .ltr)⟩) rfl root hs le_rfl le_rfl 0
  obtain ⟨more, h3, h3'⟩ := sameAbsEach hsame.2
    (cb := ⟨⟨viewport.x, viewport.y⟩, (.horizontalTb, .ltr)⟩) rfl new h2
  simp only [rootLayout, rootLayoutWith, h1, h1', bind, Except.bind, List.nil_append, h3, h3', pure,
    Except.pure]

/-- C45: two box trees that differ only in what is marked as containing floats, and in
floats, are laid out to the same fragments. -/
theorem C45_same_fragments (E : TextEnv) (root root' : Bfc) (hs : root.sound) (hs' : root'.sound)
    (h : root.noFloats = root'.noFloats) (viewport : PVec2 Length) :
    rootLayout E root viewport = rootLayout E root' viewport := by
  rw [← C45_without_floats E root hs, h, C45_without_floats E root' hs']

/-- a tree for examples: two blocks with a float in between, then lines with a float among
the words; `mark` is what is recorded about floats -/
def floatTree (mark : Bool) (floating : Style) (words : List InlineLevelBox) : Bfc :=
  .mk (.blockLevelBoxes [blockOf 5 5,
    .outOfFlowFloatBox floating (.mk (.blockLevelBoxes [blockOf 1 1]) mark),
    blockOf 8 0,
    .independent plainStyle (.mk (.inlineFormattingContext plainStyle
      ([.textRun plainStyle "ab cd".toList (blockEnv.font plainStyle)] ++ words ++
        [.textRun plainStyle " ef".toList (blockEnv.font plainStyle)])) mark)]) mark

/-- heights and positions of the children of a box -/
def floatTops : Except Panic (List Fragment) → List (Length × Length × Nat)
  | .ok fs => fs.filterMap fun
    | .box _ g _ children => some (g.contentRect.startCorner.block, g.contentRect.size.block,
        children.length)
    | _ => none
  | .error _ => []

example : rootLayout blockEnv (floatTree true (plainStyle.set .width (.length 7))
      [.outOfFlowFloatBox plainStyle (.mk (.blockLevelBoxes [blockOf 1 1]) true)]) ⟨40, 40⟩ =
    rootLayout blockEnv (floatTree false plainStyle []) ⟨40, 40⟩ :=
  C45_same_fragments _ _ _ (by simp [floatTree, Bfc.sound, BlockContainer.sound, blockSound, inlineSound,
    BlockLevelBox.sound, InlineLevelBox.sound, blockOf, emptyBlock])
    (by simp [floatTree, Bfc.sound, BlockContainer.sound, blockSound, inlineSound,
    BlockLevelBox.sound, InlineLevelBox.sound, blockOf, emptyBlock])
    (by simp [floatTree, Bfc.noFloats, BlockContainer.noFloats, blockNoFloats, inlineNoFloats,
    BlockLevelBox.noFloats, blockOf, emptyBlock]) _

/-- the float does not separate the margins of 5 and 8 around it -/
example : floatTops (rootLayout blockEnv (floatTree true plainStyle
    [.outOfFlowFloatBox plainStyle (.mk (.blockLevelBoxes [blockOf 1 1]) true)]) ⟨40, 40⟩) =
    [(5, 10, 0), (23, 10, 0), (33, 288 / 5, 3)] := by decide +kernel

/-- C45 for the box tree of a document. -/
theorem C45_document {S : SelectorEngine} (K : CssColors) (tokenize : AttrTokenizer)
    (ua author : StyleSet S) (d : Doc) (E E' : TextEnv) (n : Nat) (root : Bfc)
    (h : boxTree (BoxContext.of K tokenize ua author d E) n = .ok root) (viewport : PVec2 Length) :
    ∃ fs, rootLayout E' root viewport = .ok fs ∧ rootLayout E' root.noFloats viewport = .ok fs := by
  obtain ⟨fs, hfs⟩ := C42_layout_completes K tokenize ua author d E E' n root h viewport
  exact ⟨fs, hfs, by
    rw [C45_without_floats E' root (boxTree_sound (styleSound_of K tokenize ua author d E) h), hfs]⟩

/-- C45: the bookkeeping is right: in the box tree of every document, a formatting context is
marked as containing floats exactly if there is a float in it. -/
theorem C45_marks {S : SelectorEngine} (K : CssColors) (tokenize : AttrTokenizer)
    (ua author : StyleSet S) (d : Doc) (E : TextEnv) (n : Nat) (root : Bfc)
    (h : boxTree (BoxContext.of K tokenize ua author d E) n = .ok root) : root.marked :=
  boxTree_marked h

/-- The mark counts floats in the lines and in blocks, not those in other formatting contexts. -/
example : ¬ (floatTree false plainStyle []).marked ∧
    ¬ (Bfc.mk (.blockLevelBoxes [.independent plainStyle (floatTree true plainStyle [])]) true).marked ∧
    (Bfc.mk (.inlineFormattingContext plainStyle [.inlineBox plainStyle true true
      [.outOfFlowFloatBox plainStyle (.mk (.blockLevelBoxes []) false)]]) true).marked := by
  simp [Bfc.marked, BlockContainer.marked, BlockContainer.floats, floatTree, blockFloats,
    BlockLevelBox.floats, blockOf, inlineFloats, InlineLevelBox.floats, inlineMarked,
    InlineLevelBox.marked, blockMarked, BlockLevelBox.marked]

end Sinab
