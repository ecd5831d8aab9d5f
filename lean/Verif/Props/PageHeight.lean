import Verif.Spec.PageHeight
import Verif.Props.Zoom
import Verif.Props.Held
import Verif.Lemmas.BoxSound

/-! The height of the page (C88). -/

namespace Sinab

namespace PageHeight

/-! ## Boxes in the flow -/

theorem inFlowSizes_height {w w' : LengthOrAuto} {i : Length} {m : Mode} {s : Style} (hs : s.heightGiven)
    (k : BlockLevelKind) : inFlowSizes ⟨i, w, m⟩ s k = inFlowSizes ⟨i, w', m⟩ s k := by
  unfold inFlowSizes
  cases hb : s.boxSize.block with
  | length l => rfl
  | auto => rfl
  | percentage p => exact absurd hb (hs p)

theorem layoutInFlow_height (absL : AbsLayout) {i : Length} {w w' : LengthOrAuto} {m : Mode} (abs : List AbsFragment)
    {s : Style} (hs : s.heightGiven) (k : BlockLevelKind)
    (L : ContainingBlock → List AbsFragment → Bool → Except Panic (FlowChildren × List AbsFragment)) :
    layoutInFlow absL ⟨i, w, m⟩ abs s k L = layoutInFlow absL ⟨i, w', m⟩ abs s k L := by
  unfold layoutInFlow
  rw [inFlowSizes_height (w := w) (w' := w') hs k]

theorem boxLayout_height (E : TextEnv) (n : Nat) {i : Length} {w w' : LengthOrAuto} {m : Mode} {b : BlockLevelBox}
    (hb : ∀ s ∈ b.flowStyle, s.heightGiven) (rank : Nat) (abs : List AbsFragment) (fl : Bool) :
    boxLayout E n b ⟨i, w, m⟩ rank abs fl = boxLayout E n b ⟨i, w', m⟩ rank abs fl := by
  cases n with
  | zero => rfl
  | succ n =>
    rw [boxLayout]
    unfold boxLayoutWith
    cases b with
    | sameFormattingContextBlock s c => exact layoutInFlow_height _ _ (hb s rfl) _ _
    | independent s c => exact layoutInFlow_height _ _ (hb s rfl) _ _
    | outOfFlowAbsolutelyPositionedBox s c => rfl
    | outOfFlowFloatBox s c => rfl

theorem layoutEach_height (E : TextEnv) (n : Nat) {i : Length} {w w' : LengthOrAuto} {m : Mode} :
    ∀ (bs : List BlockLevelBox) (k : Nat) (abs : List AbsFragment), (∀ b ∈ bs, ∀ s ∈ b.flowStyle, s.heightGiven) →
    layoutEach (boxLayout E n) ⟨i, w, m⟩ k bs abs = layoutEach (boxLayout E n) ⟨i, w', m⟩ k bs abs
  | [], _, _, _ => rfl
  | b :: bs, k, abs, h => by
    simp only [layoutEach]
    rw [boxLayout_height E n (w := w) (w' := w') (h b (by simp))]
    congr 1
    funext x
    rw [layoutEach_height E n bs (k + 1) x.2 fun b hb => h b (by simp [hb])]

theorem layoutAndPlaceEach_height (E : TextEnv) (n : Nat) {i : Length} {w w' : LengthOrAuto} {m : Mode} :
    ∀ (bs : List BlockLevelBox) (k : Nat) (abs : List AbsFragment) (st : PlacementState),
    (∀ b ∈ bs, ∀ s ∈ b.flowStyle, s.heightGiven) →
    layoutAndPlaceEach (boxLayout E n) ⟨i, w, m⟩ k bs abs st = layoutAndPlaceEach (boxLayout E n) ⟨i, w', m⟩ k bs abs st
  | [], _, _, _, _ => rfl
  | b :: bs, k, abs, st, h => by
    simp only [layoutAndPlaceEach]
    rw [boxLayout_height E n (w := w) (w' := w') (h b (by simp))]
    congr 1
    funext x
    congr 1
    funext y
    rw [layoutAndPlaceEach_height E n bs (k + 1) x.2 y.2 fun b hb => h b (by simp [hb])]

theorem bfc_height (E : TextEnv) (n : Nat) {i : Length} {w w' : LengthOrAuto} {m : Mode} {bs : List BlockLevelBox}
    (h : ∀ b ∈ bs, ∀ s ∈ b.flowStyle, s.heightGiven) (fl : Bool) (rank : Nat) (abs : List AbsFragment) :
    bfcLayout E (boxLayout E n) (.mk (.blockLevelBoxes bs) fl) ⟨i, w, m⟩ rank abs =
      bfcLayout E (boxLayout E n) (.mk (.blockLevelBoxes bs) fl) ⟨i, w', m⟩ rank abs := by
  simp only [bfcLayout, Bfc.contents, containerLayout, layoutBlockLevelChildren]
  rw [layoutEach_height E n (w := w) (w' := w') bs 0 abs h,
    layoutAndPlaceEach_height E n (w := w) (w' := w') bs 0 abs _ h]

/-! ## Absolutely positioned boxes -/

/-- how far what has this anchor is moved -/
def anchorMove (d : Length) : Anchor → Length
  | .start _ => 0
  | .«end» _ => d

theorem absSizes_height (a : AbsFragment) (w h h' : Length) (m : Mode) :
    absSizes a ⟨⟨w, h⟩, m⟩ = absSizes a ⟨⟨w, h'⟩, m⟩ := rfl

theorem contentRect_height (s : AbsSizes) (w h h' : Length) (m : Mode) (b : Length) :
    s.contentRect ⟨⟨w, h'⟩, m⟩ b = { s.contentRect ⟨⟨w, h⟩, m⟩ b with startCorner :=
      ⟨(s.contentRect ⟨⟨w, h⟩, m⟩ b).startCorner.inline + anchorMove (h' - h) s.inlineAnchor,
        (s.contentRect ⟨⟨w, h⟩, m⟩ b).startCorner.block + anchorMove (h' - h) s.blockAnchor⟩ } := by
  unfold AbsSizes.contentRect
  ext
  · simp only
    cases s.inlineAnchor with
    | start v => simp [anchorMove]
    | «end» v => simp only [anchorMove]; ring
  · simp only
    cases s.blockAnchor with
    | start v => simp [anchorMove]
    | «end» v => simp only [anchorMove]; ring
  · rfl
  · rfl

theorem absLayout_height (E : TextEnv) (n : Nat) (a : AbsFragment) (w h h' : Length) (m : Mode) :
    absLayout E n a ⟨⟨w, h'⟩, m⟩ = (absLayout E n a ⟨⟨w, h⟩, m⟩).map fun f =>
      f.movedBy (anchorMove (h' - h) (absSizes a ⟨⟨w, h⟩, m⟩).inlineAnchor)
        (anchorMove (h' - h) (absSizes a ⟨⟨w, h⟩, m⟩).blockAnchor) := by
  cases n with
  | zero => rfl
  | succ n =>
    simp only [absLayout, absLayoutWith, absSizes_height a w h' h m]
    split
    · rfl
    · cases hb : bfcLayout E (boxLayout E n) a.contents ⟨(absSizes a ⟨⟨w, h⟩, m⟩).inlineSize,
          (absSizes a ⟨⟨w, h⟩, m⟩).blockSize, a.style.writingMode⟩ 0 [] with
      | error e => rfl
      | ok r =>
        simp only [bind, Except.bind]
        have e1 : ∀ x, ((absSizes a ⟨⟨w, h⟩, m⟩).contentRect ⟨⟨w, h'⟩, m⟩ x).size =
          ((absSizes a ⟨⟨w, h⟩, m⟩).contentRect ⟨⟨w, h⟩, m⟩ x).size := fun _ => rfl
        rw [e1]
        cases inPositionedContainingBlock (absLayout E n) r.2 r.1.fragments
            ((absSizes a ⟨⟨w, h⟩, m⟩).contentRect ⟨⟨w, h⟩, m⟩ ((absSizes a ⟨⟨w, h⟩, m⟩).blockSize.autoIs r.1.blockSize)).size
            (absSizes a ⟨⟨w, h⟩, m⟩).padding a.style.writingMode with
        | error e => rfl
        | ok ch =>
          simp only [pure, Except.pure, Except.map, Fragment.movedBy]
          rw [contentRect_height _ w h h' m]

/-- how far an element placed on the page is moved to the right, and down -/
def moveRight (s : Style) (d : Length) : Length := if s.fromRight then d else 0
def moveDown (s : Style) (d : Length) : Length := if s.fromBottom then d else 0

theorem solveAxis_anchor (cs pb : Length) (ms me : LengthOrAuto) (sm : Length → Length × Length) (o : AbsOffsets)
    (size : LengthOrPercentageOrAuto) {s e : LengthOrPercentageOrAuto} (h : OffsetsOf s e o) (d : Length) :
    anchorMove d (solveAxis cs pb ms me sm o size).1 = if s = .auto ∧ e ≠ .auto then d else 0 := by
  cases h with
  | neither v => simp [solveAxis, anchorMove]
  | start v => cases v <;> simp [solveAxis, anchorMove, LengthOrPercentage.given]
  | «end» v => cases v <;> simp [solveAxis, anchorMove, LengthOrPercentage.given]
  | both v w =>
    have : v.given ≠ .auto := by cases v <;> simp [LengthOrPercentage.given]
    simp only [solveAxis, this, false_and, if_false]
    cases size.percentageRelativeTo cs <;> rfl

theorem layoutAbsEach_height (E : TextEnv) (n : Nat) (w h h' : Length) (m : Mode) : ∀ (as : List AbsFragment),
    (∀ a ∈ as, ByStyle a) → layoutAbsEach (absLayout E n) ⟨⟨w, h'⟩, m⟩ as =
      (layoutAbsEach (absLayout E n) ⟨⟨w, h⟩, m⟩ as).map fun fs =>
        List.zipWith (fun p f => f.movedBy (moveRight p.1 (h' - h)) (moveDown p.1 (h' - h)))
          (as.map AbsFragment.box) fs
  | [], _ => rfl
  | a :: as, hs => by
    have ha := hs a (by simp)
    simp only [layoutAbsEach]
    rw [absLayout_height E n a w h h' m, layoutAbsEach_height E n w h h' m as fun a ha => hs a (by simp [ha])]
    have e1 : anchorMove (h' - h) (absSizes a ⟨⟨w, h⟩, m⟩).inlineAnchor = moveRight a.style (h' - h) :=
      solveAxis_anchor _ _ _ _ _ _ _ ha.inline _
    have e2 : anchorMove (h' - h) (absSizes a ⟨⟨w, h⟩, m⟩).blockAnchor = moveDown a.style (h' - h) :=
      solveAxis_anchor _ _ _ _ _ _ _ ha.block _
    rw [e1, e2]
    cases absLayout E n a ⟨⟨w, h⟩, m⟩ with
    | error e => rfl
    | ok f =>
      cases layoutAbsEach (absLayout E n) ⟨⟨w, h⟩, m⟩ as with
      | error e => rfl
      | ok fs => rfl

end PageHeight

open PageHeight

/-- C88 for box trees: on a page of another height, everything is laid out as before, if the outermost boxes do not have a percentage
as height, except for the absolutely positioned boxes that belong to the page and are placed from its bottom edge only or
from its right edge only; these are the same, moved down or (as the code measures the distance from the right edge from the height
of the page) to the right by the difference of the heights. -/
theorem C88_layout (E : TextEnv) (bs : List BlockLevelBox) (fl : Bool) (hs : blockSound bs)
    (hh : ∀ b ∈ bs, ∀ s ∈ b.flowStyle, s.heightGiven) (w h h' : Length) :
    (∀ e, rootLayout E (.mk (.blockLevelBoxes bs) fl) ⟨w, h⟩ = .error e →
      rootLayout E (.mk (.blockLevelBoxes bs) fl) ⟨w, h'⟩ = .error e) ∧
    (∀ fs, rootLayout E (.mk (.blockLevelBoxes bs) fl) ⟨w, h⟩ = .ok fs →
      ∃ inFlow placed, fs = inFlow ++ placed ∧ placed.length = (heldAll bs).length ∧
        rootLayout E (.mk (.blockLevelBoxes bs) fl) ⟨w, h'⟩ = .ok (inFlow ++ List.zipWith (fun p f =>
          f.movedBy (if p.1.fromRight then h' - h else 0) (if p.1.fromBottom then h' - h else 0))
          (heldAll bs) placed)) := by
  unfold rootLayout rootLayoutWith
  simp only [bind, Except.bind]
  rw [bfc_height E _ (w := .length h') (w' := .length h) hh fl 0 []]
  cases hb : bfcLayout E (boxLayout E (Bfc.mk (.blockLevelBoxes bs) fl).depth) (.mk (.blockLevelBoxes bs) fl)
      ⟨w, .length h, (.horizontalTb, .ltr)⟩ 0 [] with
  | error e => exact ⟨fun _ h => h, fun fs h => nomatch h⟩
  | ok r =>
    obtain ⟨new, e1, e2, e3⟩ := C43_found_independent E _ (.blockLevelBoxes bs) fl hs _ _ _ _ _ hb
    rw [List.nil_append] at e1
    rw [BlockContainer.held] at e2
    simp only
    rw [e1, layoutAbsEach_height E _ w h h' _ new e3]
    cases ha : layoutAbsEach (absLayout E (Bfc.mk (.blockLevelBoxes bs) fl).depth) ⟨⟨w, h⟩, (.horizontalTb, .ltr)⟩ new with
    | error e => exact ⟨fun _ h => h, fun fs h => nomatch h⟩
    | ok more =>
      refine ⟨fun _ h => (nomatch h), fun fs hfs => ?_⟩
      cases hfs
      refine ⟨r.1.fragments, more, rfl, ?_, ?_⟩
      · have hl : ∀ (as : List AbsFragment) (more : List Fragment), layoutAbsEach (absLayout E
            (Bfc.mk (.blockLevelBoxes bs) fl).depth) ⟨⟨w, h⟩, (.horizontalTb, .ltr)⟩ as = .ok more →
            more.length = as.length := by
          intro as
          induction as with
          | nil => intro more h; cases h; rfl
          | cons a as ih =>
            intro more h
            obtain ⟨f, h1, h⟩ := bind_eq_ok.1 h
            obtain ⟨fs, h2, h⟩ := bind_eq_ok.1 h
            cases h
            simp [ih fs h2]
        rw [hl _ _ ha, ← e2, List.length_map]
      · rw [← e2]
        rfl

theorem movedBy_zero (f : Fragment) : f.movedBy 0 0 = f := by
  cases f <;> simp [Fragment.movedBy]

/-- C88 as it should be: the height of the page matters only to boxes with a percentage of it as height, and
to those placed from its bottom edge. -/
def C88_full : Prop :=
  ∀ (E : TextEnv) (bs : List BlockLevelBox) (fl : Bool), blockSound bs →
    (∀ b ∈ bs, ∀ s ∈ b.flowStyle, s.heightGiven) → (∀ p ∈ heldAll bs, ¬ p.1.fromBottom) → ∀ w h h' : Length,
    rootLayout E (.mk (.blockLevelBoxes bs) fl) ⟨w, h⟩ = rootLayout E (.mk (.blockLevelBoxes bs) fl) ⟨w, h'⟩

/-- C88 for box trees (part): the height of the page does not matter if no absolutely positioned box is
placed on the page from its right edge either. -/
theorem C88_same_partial (E : TextEnv) (bs : List BlockLevelBox) (fl : Bool) (hs : blockSound bs)
    (hh : ∀ b ∈ bs, ∀ s ∈ b.flowStyle, s.heightGiven) (hb : ∀ p ∈ heldAll bs, ¬ p.1.fromBottom)
    (hr : ∀ p ∈ heldAll bs, ¬ p.1.fromRight) (w h h' : Length) :
    rootLayout E (.mk (.blockLevelBoxes bs) fl) ⟨w, h⟩ = rootLayout E (.mk (.blockLevelBoxes bs) fl) ⟨w, h'⟩ := by
  obtain ⟨h1, h2⟩ := C88_layout E bs fl hs hh w h h'
  cases hl : rootLayout E (.mk (.blockLevelBoxes bs) fl) ⟨w, h⟩ with
  | error e => exact (h1 e hl).symm
  | ok fs =>
    obtain ⟨inFlow, placed, rfl, e1, e2⟩ := h2 fs hl
    rw [e2]
    congr 2
    have : ∀ (ps : List (Style × Bfc)) (fs : List Fragment), fs.length = ps.length → (∀ p ∈ ps, ¬ p.1.fromBottom) →
        (∀ p ∈ ps, ¬ p.1.fromRight) → fs = List.zipWith (fun p f =>
          f.movedBy (if p.1.fromRight then h' - h else 0) (if p.1.fromBottom then h' - h else 0)) ps fs := by
      intro ps
      induction ps with
      | nil => intro fs hl _ _; rw [List.length_nil, List.length_eq_zero_iff] at hl; subst hl; rfl
      | cons p ps ih =>
        intro fs hl hb hr
        cases fs with
        | nil => rfl
        | cons f fs =>
          rw [List.zipWith_cons_cons, if_neg (hb p (by simp)), if_neg (hr p (by simp)), movedBy_zero,
            ← ih fs (by simpa using hl) (fun p hp => hb p (by simp [hp])) fun p hp => hr p (by simp [hp])]
    exact this _ _ e1 hb hr

/-! ## Documents -/

namespace PageHeight

theorem heldAll_append {a b : List BlockLevelBox} : heldAll (a ++ b) = heldAll a ++ heldAll b := by
  induction a with
  | nil => rfl
  | cons x a ih => simp [heldAll, ih]

theorem inlineAbsBoxes_app {a b : List InlineLevelBox} :
    inlineAbsBoxes (a ++ b) = inlineAbsBoxes a ++ inlineAbsBoxes b := by
  induction a with
  | nil => rfl
  | cons x a ih => simp [inlineAbsBoxes, ih]

/-- the absolutely positioned boxes in the builder that belong to what is outside have such a style -/
structure FlowHeld (P : Style → Prop) (f : Flow) : Prop where
  blocks : ∀ p ∈ heldAll (f.blocks.map (·.box)), P p.1
  inl : ∀ p ∈ inlineAbsBoxes f.inl, P p.1

variable {P : Style → Prop}

theorem FlowHeld.empty : FlowHeld P Flow.empty := ⟨by simp [Flow.empty, heldAll], by simp [Flow.empty, inlineAbsBoxes]⟩

theorem FlowHeld.flush {f : Flow} (h : FlowHeld P f) (cst : Style) : FlowHeld P (f.flush cst) := by
  unfold Flow.flush
  split
  · exact h
  · refine ⟨?_, by simp [inlineAbsBoxes]⟩
    intro p hp
    rw [List.map_append, heldAll_append] at hp
    rcases List.mem_append.1 hp with hp | hp
    · exact h.blocks p hp
    · simp only [Flow.anon, List.map_cons, List.map_nil, heldAll, BlockLevelBox.held, BlockContainer.held,
        List.append_nil] at hp
      split at hp
      · cases hp
      · exact h.inl p hp

theorem FlowHeld.container {f : Flow} (h : FlowHeld P f) (cst : Style) : ∀ p ∈ (f.container cst).1.held, P p.1 := by
  unfold Flow.container
  split
  · exact h.inl
  · exact (h.flush cst).blocks

theorem FlowHeld.pushBlk {f : Flow} (h : FlowHeld P f) {b : Blk} (hb : ∀ p ∈ b.box.held, P p.1) :
    FlowHeld P (f.pushBlk b) := by
  refine ⟨?_, h.inl⟩
  intro p hp
  simp only [Flow.pushBlk, List.map_append, heldAll_append, List.map_cons, List.map_nil, heldAll, List.append_nil] at hp
  rcases List.mem_append.1 hp with hp | hp
  · exact h.blocks p hp
  · exact hb p hp

theorem FlowHeld.note {f : Flow} (h : FlowHeld P f) (id : NodeId) (c : LayoutCell) : FlowHeld P (f.note id c) := ⟨h.1, h.2⟩

theorem FlowHeld.push {f : Flow} (h : FlowHeld P f) {b : InlineLevelBox} (hb : ∀ p ∈ b.absBoxes, P p.1) :
    FlowHeld P (f.push b) := by
  refine ⟨h.1, ?_⟩
  intro p hp
  simp only [Flow.push, inlineAbsBoxes_app, inlineAbsBoxes, List.append_nil] at hp
  rcases List.mem_append.1 hp with hp | hp
  · exact h.inl p hp
  · exact hb p hp

theorem addRun_held {C : BoxContext} {st : Style} {t : Text} {l : List InlineLevelBox}
    (h : ∀ p ∈ inlineAbsBoxes l, P p.1) : ∀ p ∈ inlineAbsBoxes (addRun C st t l), P p.1 := by
  unfold addRun
  split
  · exact h
  · rcases appendText_cases C st t l with ⟨s, old, f, pre, rfl, e⟩ | ⟨-, e⟩
    · rw [e]
      simpa [inlineAbsBoxes_app, inlineAbsBoxes, InlineLevelBox.absBoxes] using h
    · rw [e]
      simpa [inlineAbsBoxes_app, inlineAbsBoxes, InlineLevelBox.absBoxes] using h

theorem textInto_held {C : BoxContext} {st : Style} {t : Text} {l : List InlineLevelBox}
    (h : ∀ p ∈ inlineAbsBoxes l, P p.1) : ∀ p ∈ inlineAbsBoxes (textInto C st t l), P p.1 := by
  obtain ⟨b, e⟩ := textInto_any C st t l
  rw [e]
  exact addRun_held h

mutual

theorem put_held (C : BoxContext) : ∀ (c : Styled) (cst : Style) (inl : Bool) (f : Flow), (∀ s ∈ c.onPage, P s) →
    FlowHeld P f → FlowHeld P (c.put C cst inl f)
  | .other, _, _, f, _, h => h
  | .hidden id, _, _, f, _, h => ⟨h.1, h.2⟩
  | .text st t, _, _, f, _, h => ⟨h.1, textInto_held h.2⟩
  | .contents id ks, cst, inl, f, hs, h => by
    rw [Styled.onPage] at hs
    exact putAll_held C ks cst inl ((f.note id ⟨some .displayContents, false⟩).claim id) hs ⟨h.1, h.2⟩
  | .elem id st .inline _ ks, cst, inl, f, hs, h => by
    rw [Styled.onPage] at hs
    have := putAll_held C ks cst true ((({ f with inl := [] } : Flow).note id ⟨none, true⟩).claim id) hs
      ⟨h.1, by simp [Flow.note, Flow.claim, inlineAbsBoxes]⟩
    refine ⟨this.1, ?_⟩
    intro p hp
    simp only [Styled.put, Flow.note, inlineAbsBoxes_app, inlineAbsBoxes, InlineLevelBox.absBoxes, List.append_nil] at hp
    rcases List.mem_append.1 hp with hp | hp
    · exact h.inl p hp
    · exact this.inl p hp
  | .elem id st .block ins ks, cst, inl, f, hs, h => by
    rw [Styled.onPage] at hs
    have hf : FlowHeld P ((f.note id ⟨none, true⟩).claim id) := ⟨h.1, h.2⟩
    have hf' : FlowHeld P { (f.note id ⟨none, true⟩).claim id with floats := true } := ⟨h.1, h.2⟩
    simp only [Styled.put]
    split
    · rename_i ha
      rw [if_pos ha] at hs
      split
      · refine FlowHeld.note (f := Flow.absorb _ _ _) ?_ _ _
        have := hf.push (b := .outOfFlowAbsolutelyPositionedBox st
          (.mk ((putAll C st false ks Flow.empty).container st).1 ((putAll C st false ks Flow.empty).container st).2.1))
          (by simpa [InlineLevelBox.absBoxes] using hs)
        exact ⟨this.1, this.2⟩
      · exact hf.pushBlk (by simpa [BlockLevelBox.held] using hs)
    · rename_i ha
      rw [if_neg ha] at hs
      split
      · split
        · refine FlowHeld.note (f := Flow.absorb _ _ _) ?_ _ _
          have := hf'.push (b := .outOfFlowFloatBox st
            (.mk ((putAll C st false ks Flow.empty).container st).1 ((putAll C st false ks Flow.empty).container st).2.1))
            (by simp [InlineLevelBox.absBoxes])
          exact ⟨this.1, this.2⟩
        · exact hf'.pushBlk (by simp [BlockLevelBox.held])
      · rename_i hfl
        rw [if_neg hfl] at hs
        have key : st.val .position ≠ Position.relative →
            ∀ p ∈ ((putAll C st false ks Flow.empty).container st).1.held, P p.1 := by
          intro hr
          rw [if_neg hr] at hs
          exact (putAll_held C ks st false Flow.empty hs FlowHeld.empty).container st
        split
        · refine (hf.flush cst).pushBlk ?_
          rw [BlockLevelBox.held]
          split
          · simp
          · rename_i hr
            exact key hr
        · refine (hf.flush cst).pushBlk ?_
          rw [BlockLevelBox.held]
          split
          · simp
          · rename_i hr
            exact key hr

theorem putAll_held (C : BoxContext) : ∀ (cs : List Styled) (cst : Style) (inl : Bool) (f : Flow),
    (∀ s ∈ onPageAll cs, P s) → FlowHeld P f → FlowHeld P (putAll C cst inl cs f)
  | [], _, _, f, _, h => h
  | c :: cs, cst, inl, f, hs, h => by
    rw [onPageAll] at hs
    exact putAll_held C cs cst inl _ (fun s h => hs s (List.mem_append_right _ h))
      (put_held C c cst inl f (fun s h => hs s (List.mem_append_left _ h)) h)

end

theorem containerOf_held (C : BoxContext) (st : Style) {cs : List Styled} (h : ∀ s ∈ onPageAll cs, P s) :
    ∀ p ∈ (containerOf C st cs).1.held, P p.1 :=
  (putAll_held C cs st false Flow.empty h FlowHeld.empty).container st

mutual

/-- painting uses only the corner of the area around -/
theorem paintOnto_corner (c : PVec2 Length) (s s' : PVec2 Length) : ∀ f : Fragment,
    f.paintOnto ⟨c, s⟩ = f.paintOnto ⟨c, s'⟩
  | .box .. => by simp only [Fragment.paintOnto, Rect.onPage]
  | .anonymous .. => by simp only [Fragment.paintOnto, Rect.onPage]
  | .text .. => by simp only [Fragment.paintOnto, Rect.onPage]

theorem paintAll_corner (c : PVec2 Length) (s s' : PVec2 Length) : ∀ fs : List Fragment,
    paintAll ⟨c, s⟩ fs = paintAll ⟨c, s'⟩ fs
  | [] => rfl
  | f :: fs => by
    simp only [paintAll]
    rw [paintOnto_corner c s s' f, paintAll_corner c s s' fs]

end

end PageHeight

/-- C88 for documents (part): what is drawn does not depend on the height of the page, if the root element does not have a percentage
as height, and no absolutely positioned element is placed on the page from its bottom edge only, or from its right edge only. -/
theorem C88_document_partial {E : TextEnv} {C : BoxContext} {kids : NodeId → List NodeId} {st : Style}
    {cs : List Styled} {b : Bfc} {w h : Length} {fs : List Fragment} (hP : Page C E kids st cs b ⟨w, h⟩ fs)
    (hh : st.heightGiven) (hp : ∀ s ∈ (Styled.elem 0 st .block .flow cs).onPage, ¬ s.fromBottom ∧ ¬ s.fromRight)
    (h' : Length) : Page C E kids st cs b ⟨w, h'⟩ fs ∧ paintPage ⟨w, h'⟩ fs = paintPage ⟨w, h⟩ fs := by
  refine ⟨⟨hP.forest, hP.context, hP.content, hP.shown, hP.boxes, ?_⟩, paintAll_corner _ _ _ _⟩
  have hl := hP.laidOut
  have hs := hP.sound
  have hb := hP.boxes_eq
  have key : ∃ x fl, b = .mk (.blockLevelBoxes [x]) fl ∧ (∀ s ∈ x.flowStyle, s.heightGiven) ∧
      ∀ p ∈ x.held, ¬ p.1.fromBottom ∧ ¬ p.1.fromRight := by
    rw [Styled.onPage] at hp
    split at hb
    · rename_i ha
      rw [if_pos ha] at hp
      exact ⟨_, _, hb, by simp [BlockLevelBox.flowStyle], by simpa [BlockLevelBox.held] using hp⟩
    · rename_i ha
      rw [if_neg ha] at hp
      split at hb
      · exact ⟨_, _, hb, by simp [BlockLevelBox.flowStyle], by simp [BlockLevelBox.held]⟩
      · rename_i hf
        rw [if_neg hf] at hp
        refine ⟨_, _, hb, by simpa [BlockLevelBox.flowStyle] using hh, ?_⟩
        rw [BlockLevelBox.held]
        split
        · simp
        · rename_i hr
          rw [if_neg hr] at hp
          exact containerOf_held C st hp
  obtain ⟨x, fl, rfl, h1, h2⟩ := key
  rw [← hl]
  refine C88_same_partial E [x] fl hs (by simpa using h1) ?_ ?_ _ _ _
  · simpa [heldAll] using fun a b hab => (h2 (a, b) hab).1
  · simpa [heldAll] using fun a b hab => (h2 (a, b) hab).2

/-! ## Examples -/

/-- an empty box of width 10, 5 from the right edge -/
def rightBox : BlockLevelBox :=
  .outOfFlowAbsolutelyPositionedBox ((plainStyle.set .right (.length 5)).set .width (.length 10)) (.mk (.blockLevelBoxes []) false)

/-- an empty box of width 10, 5 from the bottom edge -/
def bottomBox : BlockLevelBox :=
  .outOfFlowAbsolutelyPositionedBox ((plainStyle.set .bottom (.length 5)).set .width (.length 10)) (.mk (.blockLevelBoxes []) false)

/-- a block with a text -/
def heightBlock : BlockLevelBox :=
  .independent (plainStyle.set .height (.length 30)) (.mk (.blockLevelBoxes [
    .sameFormattingContextBlock (plainStyle.set .height (.percentage (1 / 2))) (.blockLevelBoxes []), rightBox, bottomBox]) false)

/-- the corners of the boxes -/
def boxCorners (r : Except Panic (List Fragment)) : List (ℚ × ℚ × ℚ) :=
  match r with
  | .error _ => []
  | .ok fs => fs.filterMap fun
    | .box _ g _ _ => some (g.contentRect.startCorner.inline, g.contentRect.startCorner.block, g.contentRect.size.block)
    | _ => none

/-- the box at the right edge is moved when the height is changed -/
example : boxCorners (rootLayout blockEnv (.mk (.blockLevelBoxes [heightBlock]) false) ⟨100, 50⟩) =
    [(0, 0, 30), (35, 15, 0), (0, 45, 0)] ∧
    boxCorners (rootLayout blockEnv (.mk (.blockLevelBoxes [heightBlock]) false) ⟨100, 70⟩) =
    [(0, 0, 30), (55, 15, 0), (0, 65, 0)] := by
  constructor <;> decide +kernel

theorem C88_full_false : ¬ C88_full := by
  intro h
  have := congrArg boxCorners (h blockEnv [rightBox] false ⟨by simp [rightBox, BlockLevelBox.sound, Bfc.sound,
    BlockContainer.sound, blockSound], trivial⟩ (by simp [rightBox, BlockLevelBox.flowStyle])
    (by simp only [heldAll, rightBox, BlockLevelBox.held, List.append_nil, List.mem_singleton, forall_eq]; decide +kernel) 100 50 70)
  revert this
  decide +kernel

/-- the hypotheses of `C88_layout` and `C88_same_partial` hold for boxes with contents -/
example : blockSound [heightBlock] ∧ (∀ b ∈ [heightBlock], ∀ s ∈ b.flowStyle, s.heightGiven) ∧
    (heldAll [heightBlock]).map (fun p => (decide p.1.fromRight, decide p.1.fromBottom)) =
      [(true, false), (false, true)] := by
  refine ⟨?_, ?_, by decide +kernel⟩
  · simp [heightBlock, rightBox, bottomBox, blockSound, BlockLevelBox.sound, Bfc.sound, BlockContainer.sound]
  · intro b hb s hs p hp
    rw [List.mem_singleton.1 hb] at hs
    cases hs
    have e : (plainStyle.set .height (.length 30)).val .height = .length 30 := by decide +kernel
    rw [e] at hp
    cases hp

/-- what is drawn of the example of C81 on a page of the given height -/
def drawnAtHeight (h : ℚ) : Option (List (String × ℚ × ℚ × ℚ)) :=
  match boxTree (zoomContext 1) 40 with
  | .ok b => match rootLayout zoomEnv b ⟨32, h⟩ with
    | .ok fs => some (drawnMarks (paintPage ⟨32, h⟩ fs).calls)
    | .error _ => none
  | .error _ => none

example : drawnAtHeight 7 = some [("line", 0, 9 / 2, 1), ("ab cd", 2, 59 / 5, 8), ("ef", 0, 107 / 5, 8),
    ("gh", 8, 107 / 5, 8)] ∧ drawnAtHeight 100 = drawnAtHeight 7 := by
  constructor <;> decide +kernel

/-- it has an absolutely positioned element on the page, which is placed from neither edge -/
example : (onPageAll (zoomContent 1)).map (fun s => (decide s.fromRight, decide s.fromBottom)) = [(false, false)] := by
  decide +kernel

example : (zoomStyle 1).heightGiven := by
  intro p hp
  have e : (zoomStyle 1).val .height = .auto := by decide +kernel
  rw [e] at hp
  cases hp

end Sinab
