import Verif.Props.Block
import Verif.Lemmas.BoxSound

/-! Absolutely positioned boxes (C42, C43). -/

namespace Sinab

/-! ## C42: static positions -/

/-- C42: layout of a box tree that comes from a document never aborts: no index is out of
bounds, no assertion fails and no branch is missing. -/
theorem C42_layout_completes {S : SelectorEngine} (K : CssColors) (tokenize : AttrTokenizer)
    (ua author : StyleSet S) (d : Doc) (E E' : TextEnv) (n : Nat) (root : Bfc)
    (h : boxTree (BoxContext.of K tokenize ua author d E) n = .ok root) (viewport : PVec2 Length) :
    ∃ fs, rootLayout E' root viewport = .ok fs := by
  have hs := boxTree_sound (styleSound_of K tokenize ua author d E) h
  obtain ⟨fc, new, h1, h2, _⟩ := bfcLayout_good E' (layout_good E' root.depth).1
    (cb := ⟨viewport.x, .length viewport.y, (.horizontalTb, .ltr)⟩) rfl root hs le_rfl 0
  obtain ⟨more, h3⟩ := layoutAbsEach_good (layout_good E' root.depth).2
    (cb := ⟨⟨viewport.x, viewport.y⟩, (.horizontalTb, .ltr)⟩) rfl new h2
  refine ⟨fc.fragments ++ more, ?_⟩
  simp only [rootLayout, rootLayoutWith, h1, bind, Except.bind, List.nil_append, h3, pure, Except.pure]

/-- a static position is moved with the fragment it refers to -/
def AbsOffsets.moved (d : Length) : AbsOffsets → AbsOffsets
  | .staticStart s => .staticStart (s + d)
  | o => o

/-- what becomes of an absolutely positioned box that was found in a child with the given
fragment -/
def AbsFragment.movedWith (rank : Nat) (f : Fragment) (a : AbsFragment) : AbsFragment :=
  let o : Vec2 Length := match f with
    | .box _ g _ _ => g.contentRect.startCorner
    | .anonymous r _ _ => r.startCorner
    | .text _ r _ => r.startCorner
  { a with
    treeRank := rank
    inlineStart := a.inlineStart.moved o.inline
    blockStart := a.blockStart.moved o.block }

theorem LaidOut.per {n : Nat} {boxL : BoxLayout} (hb : BoxGood n boxL) {cb : ContainingBlock}
    (hcb : cb.standard) {k bs fs abs} (h : LaidOut boxL cb k bs fs abs) (hs : blockSound bs)
    (hd : blockDepth bs ≤ n) :
    ∃ per : List (List AbsFragment), abs = per.flatten ∧ per.length = bs.length ∧
      (∀ i p, per[i]? = some p → ∀ a ∈ p, a.treeRank = k + i) ∧
      ∀ i b, bs[i]? = some b → ∃ f p, per[i]? = some p ∧
        ∀ abs fl, boxL b cb (k + i) abs fl = .ok (f, abs ++ p) := by
  induction h with
  | nil => exact ⟨[], rfl, rfl, by simp, by simp⟩
  | @cons k b bs f fs new news h1 _ ih =>
    simp only [blockDepth, max_le_iff] at hd
    obtain ⟨per, e1, e2, e3, e4⟩ := ih hs.2 hd.2
    obtain ⟨f', new', h2, _, h3⟩ := hb b cb k hs.1 hd.1 hcb
    have heq : new = new' := by
      have := (h1 [] false).symm.trans (h2 [] false)
      simp only [List.nil_append, Except.ok.injEq, Prod.mk.injEq] at this
      exact this.2
    refine ⟨new :: per, by simp [e1], by simp [e2], ?_, ?_⟩
    · intro i p hp a ha
      cases i with
      | zero =>
        simp only [List.getElem?_cons_zero, Option.some.injEq] at hp
        subst hp
        rw [heq] at ha
        exact (h3 a ha).1
      | succ i =>
        simp only [List.getElem?_cons_succ] at hp
        have := e3 i p hp a ha
        omega
    · intro i b' hb'
      cases i with
      | zero =>
        simp only [List.getElem?_cons_zero, Option.some.injEq] at hb'
        subst hb'
        exact ⟨f, new, rfl, h1⟩
      | succ i =>
        simp only [List.getElem?_cons_succ] at hb'
        obtain ⟨f2, p2, e5, e6⟩ := e4 i b' hb'
        refine ⟨f2, p2, by simpa using e5, ?_⟩
        have : k + (i + 1) = k + 1 + i := by omega
        rw [this]
        exact e6

theorem moved_flatten (rank : Nat) (all : List Fragment) : ∀ (per : List (List AbsFragment)) (k : Nat),
    (∀ i p, per[i]? = some p → ∀ a ∈ p, a.treeRank = k + i) → k + per.length = all.length →
    per.flatten.map (fun a : AbsFragment =>
      a.moved rank ((all[a.treeRank]?.map Fragment.origin).getD Vec2.zero)) =
    (List.zipWith (fun f p => p.map (AbsFragment.movedWith rank f)) (all.drop k) per).flatten := by
  intro per
  induction per with
  | nil => intro k _ _; simp
  | cons p per ih =>
    intro k h hl
    simp only [List.length_cons] at hl
    have hk : k < all.length := by omega
    rw [List.drop_eq_getElem_cons hk]
    simp only [List.flatten_cons, List.map_append, List.zipWith_cons_cons]
    congr 1
    · apply List.map_congr_left
      intro a ha
      have h1 := h 0 p rfl a ha
      rw [Nat.add_zero] at h1
      rw [h1, List.getElem?_eq_getElem hk]
      simp only [Option.map_some, Option.getD_some]
      cases all[k] <;> rfl
    · refine ih (k + 1) ?_ (by omega)
      intro i q hq a ha
      have := h (i + 1) q (by simpa using hq) a ha
      omega

/-- C42: in every block container, the absolutely positioned boxes that are found while child
`i` is laid out are moved along with the fragment of child `i`, which exists; then they count
as found in the container itself. -/
theorem C42_static_position (E : TextEnv) (n : Nat) (bs : List BlockLevelBox) (hs : blockSound bs)
    (hd : blockDepth bs ≤ n) (cb : ContainingBlock) (hcb : cb.standard) (rank : Nat)
    (abs : List AbsFragment) (floats collapsible : Bool) :
    ∃ fc per, layoutBlockLevelChildren (boxLayout E n) bs cb rank abs floats collapsible =
        .ok (fc, abs ++ (List.zipWith (fun f p => List.map (AbsFragment.movedWith rank f) p)
          fc.fragments per).flatten) ∧
      fc.fragments.length = bs.length ∧ per.length = bs.length ∧
      (∀ i b, bs[i]? = some b → ∃ f p, per[i]? = some p ∧ boxLayout E n b cb i [] floats = .ok (f, p)) ∧
      ∀ i p, per[i]? = some p → ∀ a ∈ p, AbsFragment.treeRank a = i := by
  obtain ⟨fc, new, h1, h2, ⟨h3⟩⟩ := layoutBlockLevelChildren_good (layout_good E n).1 hcb bs hs hd rank
    collapsible
  obtain ⟨per, e1, e2, e3, e4⟩ := h3.laidOut.per (layout_good E n).1 hcb hs hd
  have hlen : fc.fragments.length = bs.length := by
    rw [h3.fragments, moveAll_length h3.length, h3.laidOut.length]
  refine ⟨fc, per, ?_, hlen, e2, ?_, by simpa using e3⟩
  · rw [h1 abs floats, h3.new, e1, moved_flatten rank fc.fragments per 0 e3 (by omega), List.drop_zero]
  · intro i b hb
    obtain ⟨f, p, h5, h6⟩ := e4 i b hb
    exact ⟨f, p, h5, by simpa using h6 [] floats⟩

/-- an absolutely positioned box without offsets in the second of two blocks: its static
position is the top of the content of the second block -/
example : (match layoutBlockLevelChildren (boxLayout blockEnv 3) [blockOf 0 0,
      .sameFormattingContextBlock (plainStyle.set .paddingTop (.length 3)) (.blockLevelBoxes [
        blockOf 0 0, .outOfFlowAbsolutelyPositionedBox plainStyle (.mk (.blockLevelBoxes []) false)])]
      blockCb 7 [] false false with
    | .ok (_, abs) => abs.map fun a => (a.treeRank, a.blockStart)
    | .error _ => []) = [(7, .staticStart 23)] := by decide +kernel

/-! ## C43: absolute positioning -/

/-- C43 as stated -/
def C43_full : Prop :=
  ∀ (E : TextEnv) (n : Nat) (a : AbsFragment) (cb : DefiniteContainingBlock) (f : Fragment),
    absLayout E n a cb = .ok f → ∃ g m children, f = .box a.style g m children ∧
      AxisSolved cb.size.inline a.inlineStart a.inlineSize
        (a.style.val .marginLeft = .auto ∨ a.style.val .marginRight = .auto)
        g.marginRect.startCorner.inline (g.marginRect.startCorner.inline + g.marginRect.size.inline)
        g.contentRect.size.inline ∧
      AxisSolved cb.size.block a.blockStart a.blockSize
        (a.style.val .marginTop = .auto ∨ a.style.val .marginBottom = .auto)
        g.marginRect.startCorner.block (g.marginRect.startCorner.block + g.marginRect.size.block)
        g.contentRect.size.block

theorem absLayout_eq_ok {E : TextEnv} {n : Nat} {a : AbsFragment} {cb : DefiniteContainingBlock}
    {f : Fragment} (h : absLayout E n a cb = .ok f) :
    ∃ size children, f = .box a.style ⟨(absSizes a cb).contentRect cb ((absSizes a cb).blockSize.autoIs size),
      (absSizes a cb).padding, (absSizes a cb).border, (absSizes a cb).margin⟩ .zero children := by
  cases n with
  | zero => cases h
  | succ n =>
    rw [absLayout] at h
    unfold absLayoutWith at h
    simp only at h
    split at h
    · cases h
    · obtain ⟨⟨fc, nested⟩, _, h⟩ := bind_eq_ok.1 h
      obtain ⟨children, _, h⟩ := bind_eq_ok.1 h
      injection h with h
      exact ⟨fc.blockSize, children, h.symm⟩

/-- one axis: what `solveAxis` gives, placed at its anchor in a space of size `total` -/
theorem solveAxis_solved (total base ps pe : Length) (ms me : LengthOrAuto)
    (solve : Length → Length × Length) (hsolve : ∀ x, (solve x).1 + (solve x).2 = x)
    (o : AbsOffsets) (spec : LengthOrPercentageOrAuto) (size lo hi : Length)
    (hbase : base = total ∨ (∀ e, o ≠ .«end» e))
    (hsize : ∀ w, (solveAxis total (ps + pe) ms me solve o spec).2.1 = .length w → size = w)
    (hlo : lo = match (solveAxis total (ps + pe) ms me solve o spec).1 with
      | .start v => v
      | .«end» v => base - v - pe - (solveAxis total (ps + pe) ms me solve o spec).2.2.2 - size - ps -
          (solveAxis total (ps + pe) ms me solve o spec).2.2.1)
    (hhi : hi = lo + (size + (ps + pe) + ((solveAxis total (ps + pe) ms me solve o spec).2.2.1 +
      (solveAxis total (ps + pe) ms me solve o spec).2.2.2))) :
    AxisSolved total o spec (ms = .auto ∨ me = .auto) lo hi size := by
  subst hhi
  cases o with
  | staticStart v =>
    exact ⟨hsize, hlo⟩
  | start s => exact ⟨hsize, hlo⟩
  | «end» e =>
    have hb : base = total := by
      rcases hbase with h | h
      · exact h
      · exact absurd rfl (h e)
    subst hb
    refine ⟨hsize, ?_⟩
    show _ + _ = _
    rw [hlo]
    simp only [solveAxis]
    ring
  | both s e =>
    cases hs : spec.percentageRelativeTo total with
    | length w =>
      have hsz : size = w := hsize w (by simp only [solveAxis, hs])
      refine ⟨fun w' h' => ?_, ?_, ?_⟩
      · rw [hs] at h'
        injection h' with h'
        rw [hsz, h']
      · rw [hlo]; simp only [solveAxis, hs]
      · intro hauto
        have hl : lo = s.percentageRelativeTo total := by rw [hlo]; simp only [solveAxis, hs]
        have hsp : spec ≠ .auto := by rintro rfl; cases hs
        have hm := (or_iff_right hsp).1 hauto
        rw [hl, hsz]
        simp only [solveAxis, hs]
        cases ms with
        | auto =>
          cases me with
          | auto =>
            have := hsolve (total - s.percentageRelativeTo total - e.percentageRelativeTo total - (ps + pe) - w)
            simp only
            linarith
          | length y => simp only; ring
        | length x =>
          cases me with
          | auto => simp only; ring
          | length y => simp at hm
    | auto =>
      have hsz := hsize _ (by simp only [solveAxis, hs]; rfl)
      have hl : lo = s.percentageRelativeTo total := by rw [hlo]; simp only [solveAxis, hs]
      refine ⟨fun w' h' => (by rw [hs] at h'; cases h'), hl, fun _ => ?_⟩
      rw [hl, hsz]
      simp only [solveAxis, hs]
      ring


theorem margin_auto_left (st : Style) (x : Length) :
    (st.margin.percentagesOrAutoRelativeTo x).inlineStart = .auto ↔ st.val .marginLeft = .auto := by
  have : (st.margin.percentagesOrAutoRelativeTo x).inlineStart =
    (st.val .marginLeft).percentageRelativeTo x := rfl
  rw [this]
  cases st.val .marginLeft <;> simp [LengthOrPercentageOrAuto.percentageRelativeTo]

theorem margin_auto_right (st : Style) (x : Length) :
    (st.margin.percentagesOrAutoRelativeTo x).inlineEnd = .auto ↔ st.val .marginRight = .auto := by
  have : (st.margin.percentagesOrAutoRelativeTo x).inlineEnd =
    (st.val .marginRight).percentageRelativeTo x := rfl
  rw [this]
  cases st.val .marginRight <;> simp [LengthOrPercentageOrAuto.percentageRelativeTo]

theorem margin_auto_top (st : Style) (x : Length) :
    (st.margin.percentagesOrAutoRelativeTo x).blockStart = .auto ↔ st.val .marginTop = .auto := by
  have : (st.margin.percentagesOrAutoRelativeTo x).blockStart =
    (st.val .marginTop).percentageRelativeTo x := rfl
  rw [this]
  cases st.val .marginTop <;> simp [LengthOrPercentageOrAuto.percentageRelativeTo]

theorem margin_auto_bottom (st : Style) (x : Length) :
    (st.margin.percentagesOrAutoRelativeTo x).blockEnd = .auto ↔ st.val .marginBottom = .auto := by
  have : (st.margin.percentagesOrAutoRelativeTo x).blockEnd =
    (st.val .marginBottom).percentageRelativeTo x := rfl
  rw [this]
  cases st.val .marginBottom <;> simp [LengthOrPercentageOrAuto.percentageRelativeTo]

theorem solveInlineAuto_sum (x : Length) : (solveInlineAuto x).1 + (solveInlineAuto x).2 = x := by
  unfold solveInlineAuto
  split <;> simp

theorem solveBlockAuto_sum (x : Length) : (solveBlockAuto x).1 + (solveBlockAuto x).2 = x := by
  simp [solveBlockAuto]

/-- the inline axis -/
theorem absSizes_inline (a : AbsFragment) (cb : DefiniteContainingBlock) (y : Length)
    (h : cb.size.block = cb.size.inline ∨ ∀ e, a.inlineStart ≠ .«end» e) :
    let g : BoxGeom := ⟨(absSizes a cb).contentRect cb y, (absSizes a cb).padding, (absSizes a cb).border,
      (absSizes a cb).margin⟩
    AxisSolved cb.size.inline a.inlineStart a.inlineSize
        (a.style.val .marginLeft = .auto ∨ a.style.val .marginRight = .auto)
        g.marginRect.startCorner.inline (g.marginRect.startCorner.inline + g.marginRect.size.inline)
        g.contentRect.size.inline := by
  intro g
  rw [← margin_auto_left a.style cb.size.inline, ← margin_auto_right a.style cb.size.inline]
  have hsum : (absSizes a cb).pb.inlineSum =
      (absSizes a cb).pb.inlineStart + (absSizes a cb).pb.inlineEnd := rfl
  have hps : (absSizes a cb).pb.inlineStart = (absSizes a cb).padding.inlineStart +
      (absSizes a cb).border.inlineStart := rfl
  have hpe : (absSizes a cb).pb.inlineEnd = (absSizes a cb).padding.inlineEnd +
      (absSizes a cb).border.inlineEnd := rfl
  refine solveAxis_solved cb.size.inline cb.size.block (absSizes a cb).pb.inlineStart
    (absSizes a cb).pb.inlineEnd _ _ solveInlineAuto solveInlineAuto_sum _ _ _ _ _ h ?_ ?_ ?_
  · intro w hw
    show LengthOrAuto.autoIs _ (solveAxis cb.size.inline _ _ _ _ _ _).2.1 = w
    have : (solveAxis cb.size.inline (absSizes a cb).pb.inlineSum
      (a.style.margin.percentagesOrAutoRelativeTo cb.size.inline).inlineStart
      (a.style.margin.percentagesOrAutoRelativeTo cb.size.inline).inlineEnd solveInlineAuto
      a.inlineStart a.inlineSize).2.1 = .length w := hw
    exact congrArg (LengthOrAuto.autoIs _) this
  · show (match (absSizes a cb).inlineAnchor with
      | .start v => v + (absSizes a cb).pb.inlineStart + (absSizes a cb).margin.inlineStart
      | .«end» v => cb.size.block - v - (absSizes a cb).pb.inlineEnd - (absSizes a cb).margin.inlineEnd -
        (absSizes a cb).inlineSize) - (absSizes a cb).padding.inlineStart -
      (absSizes a cb).border.inlineStart - (absSizes a cb).margin.inlineStart = _
    have ha : (absSizes a cb).inlineAnchor = (solveAxis cb.size.inline
      ((absSizes a cb).pb.inlineStart + (absSizes a cb).pb.inlineEnd)
      (a.style.margin.percentagesOrAutoRelativeTo cb.size.inline).inlineStart
      (a.style.margin.percentagesOrAutoRelativeTo cb.size.inline).inlineEnd solveInlineAuto
      a.inlineStart a.inlineSize).1 := rfl
    rw [← ha]
    cases (absSizes a cb).inlineAnchor with
    | start v => simp only [hps]; ring
    | «end» v =>
      show _ = cb.size.block - v - (absSizes a cb).pb.inlineEnd - (absSizes a cb).margin.inlineEnd -
        (absSizes a cb).inlineSize - (absSizes a cb).pb.inlineStart - (absSizes a cb).margin.inlineStart
      simp only [hps]; ring
  · show _ + ((absSizes a cb).inlineSize +
      ((absSizes a cb).padding.inlineStart + (absSizes a cb).padding.inlineEnd) +
      ((absSizes a cb).border.inlineStart + (absSizes a cb).border.inlineEnd) +
      ((absSizes a cb).margin.inlineStart + (absSizes a cb).margin.inlineEnd)) =
      _ + ((absSizes a cb).inlineSize + ((absSizes a cb).pb.inlineStart + (absSizes a cb).pb.inlineEnd) +
      ((absSizes a cb).margin.inlineStart + (absSizes a cb).margin.inlineEnd))
    rw [hps, hpe]
    ring

/-- the block axis, as computed: percentages and sums refer to the inline size -/
theorem absSizes_block (a : AbsFragment) (cb : DefiniteContainingBlock) (x : Length)
    (h : cb.size.block = cb.size.inline ∨ ∀ e, a.blockStart ≠ .«end» e) :
    let y := (absSizes a cb).blockSize.autoIs x
    let g : BoxGeom := ⟨(absSizes a cb).contentRect cb y, (absSizes a cb).padding, (absSizes a cb).border,
      (absSizes a cb).margin⟩
    AxisSolved cb.size.inline a.blockStart a.blockSize
        (a.style.val .marginTop = .auto ∨ a.style.val .marginBottom = .auto)
        g.marginRect.startCorner.block (g.marginRect.startCorner.block + g.marginRect.size.block)
        g.contentRect.size.block := by
  intro y g
  rw [← margin_auto_top a.style cb.size.inline, ← margin_auto_bottom a.style cb.size.inline]
  have hps : (absSizes a cb).pb.blockStart = (absSizes a cb).padding.blockStart +
      (absSizes a cb).border.blockStart := rfl
  have hpe : (absSizes a cb).pb.blockEnd = (absSizes a cb).padding.blockEnd +
      (absSizes a cb).border.blockEnd := rfl
  refine solveAxis_solved cb.size.inline cb.size.block (absSizes a cb).pb.blockStart
    (absSizes a cb).pb.blockEnd _ _ solveBlockAuto solveBlockAuto_sum _ _ _ _ _ h ?_ ?_ ?_
  · intro w hw
    have : (absSizes a cb).blockSize = .length w := hw
    show LengthOrAuto.autoIs _ (absSizes a cb).blockSize = w
    rw [this]
    rfl
  · show (match (absSizes a cb).blockAnchor with
      | .start v => v + (absSizes a cb).pb.blockStart + (absSizes a cb).margin.blockStart
      | .«end» v => cb.size.block - v - (absSizes a cb).pb.blockEnd - (absSizes a cb).margin.blockEnd -
        y) - (absSizes a cb).padding.blockStart -
      (absSizes a cb).border.blockStart - (absSizes a cb).margin.blockStart = _
    have ha : (absSizes a cb).blockAnchor = (solveAxis cb.size.inline
      ((absSizes a cb).pb.blockStart + (absSizes a cb).pb.blockEnd)
      (a.style.margin.percentagesOrAutoRelativeTo cb.size.inline).blockStart
      (a.style.margin.percentagesOrAutoRelativeTo cb.size.inline).blockEnd solveBlockAuto
      a.blockStart a.blockSize).1 := rfl
    rw [← ha]
    cases (absSizes a cb).blockAnchor with
    | start v => simp only [hps]; ring
    | «end» v =>
      show _ = cb.size.block - v - (absSizes a cb).pb.blockEnd - (absSizes a cb).margin.blockEnd -
        y - (absSizes a cb).pb.blockStart - (absSizes a cb).margin.blockStart
      simp only [hps]; ring
  · show _ + (y +
      ((absSizes a cb).padding.blockStart + (absSizes a cb).padding.blockEnd) +
      ((absSizes a cb).border.blockStart + (absSizes a cb).border.blockEnd) +
      ((absSizes a cb).margin.blockStart + (absSizes a cb).margin.blockEnd)) =
      _ + (y + ((absSizes a cb).pb.blockStart + (absSizes a cb).pb.blockEnd) +
      ((absSizes a cb).margin.blockStart + (absSizes a cb).margin.blockEnd))
    rw [hps, hpe]
    ring

/-- C43 (part): the horizontal axis is solved unless only `right` is given.  Missing: with only
`right`, the distance is measured from the height of the containing block. -/
theorem C43_horizontal_partial (E : TextEnv) (n : Nat) (a : AbsFragment) (cb : DefiniteContainingBlock)
    (f : Fragment) (h : absLayout E n a cb = .ok f) (ho : ∀ e, a.inlineStart ≠ .«end» e) :
    ∃ g m children, f = .box a.style g m children ∧
      AxisSolved cb.size.inline a.inlineStart a.inlineSize
        (a.style.val .marginLeft = .auto ∨ a.style.val .marginRight = .auto)
        g.marginRect.startCorner.inline (g.marginRect.startCorner.inline + g.marginRect.size.inline)
        g.contentRect.size.inline := by
  obtain ⟨size, children, rfl⟩ := absLayout_eq_ok h
  exact ⟨_, _, _, rfl, absSizes_inline a cb _ (.inr ho)⟩

/-- C43 (part): all is as stated in a containing block that is a square. -/
theorem C43_square_partial (E : TextEnv) (n : Nat) (a : AbsFragment) (cb : DefiniteContainingBlock)
    (f : Fragment) (h : absLayout E n a cb = .ok f) (hsq : cb.size.block = cb.size.inline) :
    ∃ g m children, f = .box a.style g m children ∧
      AxisSolved cb.size.inline a.inlineStart a.inlineSize
        (a.style.val .marginLeft = .auto ∨ a.style.val .marginRight = .auto)
        g.marginRect.startCorner.inline (g.marginRect.startCorner.inline + g.marginRect.size.inline)
        g.contentRect.size.inline ∧
      AxisSolved cb.size.block a.blockStart a.blockSize
        (a.style.val .marginTop = .auto ∨ a.style.val .marginBottom = .auto)
        g.marginRect.startCorner.block (g.marginRect.startCorner.block + g.marginRect.size.block)
        g.contentRect.size.block := by
  obtain ⟨size, children, rfl⟩ := absLayout_eq_ok h
  refine ⟨_, _, _, rfl, absSizes_inline a cb _ (.inl hsq), ?_⟩
  have := absSizes_block a cb size (.inl hsq)
  rw [← hsq] at this
  exact this

/-- C43 (part): the vertical axis is solved if `top` or `bottom` is `auto` and there are no
percentages.  Missing: percentages refer to the width of the containing block, and with both
offsets the box is fitted into the width instead of the height. -/
theorem C43_vertical_partial (E : TextEnv) (n : Nat) (a : AbsFragment) (cb : DefiniteContainingBlock)
    (f : Fragment) (h : absLayout E n a cb = .ok f) (hs : ∀ p, a.blockSize ≠ .percentage p)
    (ho : match a.blockStart with
      | .staticStart _ | .start (.length _) | .«end» (.length _) => True
      | _ => False) :
    ∃ g m children, f = .box a.style g m children ∧
      AxisSolved cb.size.block a.blockStart a.blockSize
        (a.style.val .marginTop = .auto ∨ a.style.val .marginBottom = .auto)
        g.marginRect.startCorner.block (g.marginRect.startCorner.block + g.marginRect.size.block)
        g.contentRect.size.block := by
  obtain ⟨size, children, rfl⟩ := absLayout_eq_ok h
  refine ⟨_, _, _, rfl, ?_⟩
  have hsp : ∀ w, a.blockSize.percentageRelativeTo cb.size.block = .length w →
      a.blockSize.percentageRelativeTo cb.size.inline = .length w := by
    cases hb : a.blockSize with
    | percentage p => exact absurd hb (hs p)
    | length l => intro w h; exact h
    | auto => intro w h; cases h
  have hkey := absSizes_block a cb size
  by_cases he : ∀ e, a.blockStart ≠ .«end» e
  · have := hkey (.inr he)
    refine ⟨fun w hw => this.1 w (hsp w hw), ?_⟩
    have h2 := this.2
    revert ho h2
    cases hb : a.blockStart with
    | staticStart v => intro _ h; exact h
    | start s =>
      cases s with
      | length l => intro _ h; exact h
      | percentage p => intro h; exact h.elim
    | «end» e => exact absurd hb (he e)
    | both s e => intro h; exact h.elim
  · push Not at he
    obtain ⟨e, he⟩ := he
    rw [he] at ho
    cases e with
    | percentage p => exact ho.elim
    | length l =>
      have hbs : (absSizes a cb).blockSize = a.blockSize.percentageRelativeTo cb.size.inline := by
        simp only [absSizes, he, solveAxis]
      have hanchor : (absSizes a cb).blockAnchor = .«end» l := by
        simp only [absSizes, he, solveAxis, LengthOrPercentage.percentageRelativeTo]
      rw [he]
      refine ⟨fun w hw => ?_, ?_⟩
      · show LengthOrAuto.autoIs _ (absSizes a cb).blockSize = w
        rw [hbs, hsp w hw]
        rfl
      · have hps : (absSizes a cb).pb.blockStart = (absSizes a cb).padding.blockStart +
            (absSizes a cb).border.blockStart := rfl
        have hpe : (absSizes a cb).pb.blockEnd = (absSizes a cb).padding.blockEnd +
            (absSizes a cb).border.blockEnd := rfl
        generalize (absSizes a cb).blockSize.autoIs size = y
        show (match (absSizes a cb).blockAnchor with
          | .start v => v + (absSizes a cb).pb.blockStart + (absSizes a cb).margin.blockStart
          | .«end» v => cb.size.block - v - (absSizes a cb).pb.blockEnd - (absSizes a cb).margin.blockEnd -
            y) - (absSizes a cb).padding.blockStart -
          (absSizes a cb).border.blockStart - (absSizes a cb).margin.blockStart + (y +
          ((absSizes a cb).padding.blockStart + (absSizes a cb).padding.blockEnd) +
          ((absSizes a cb).border.blockStart + (absSizes a cb).border.blockEnd) +
          ((absSizes a cb).margin.blockStart + (absSizes a cb).margin.blockEnd)) + l = cb.size.block
        rw [hanchor]
        simp only [hpe]
        ring

/-- an absolutely positioned empty box with the given style, as found at the origin -/
def emptyAbs (st : Style) : AbsFragment :=
  layoutAbsBox st (.mk (.blockLevelBoxes []) false) Vec2.zero 0

/-- containing block for examples -/
def absCb : DefiniteContainingBlock := ⟨⟨100, 50⟩, (.horizontalTb, .ltr)⟩

/-- margin rectangle of a laid out box -/
def marginRectOf (r : Except Panic Fragment) : Option (Rect Length) :=
  match r with
  | .ok (.box _ g _ _) => some g.marginRect
  | _ => none

/-- `left: 10; right: 20%; top: 5; height: 7; margin-left: auto; width: 30` -/
example : marginRectOf (absLayout blockEnv 1 (emptyAbs (((((((plainStyle.set .left (.length 10)).set
    .right (.percentage (1/5))).set .top (.length 5)).set .height (.length 7)).set .marginLeft .auto).set
    .width (.length 30)).set .paddingTop (.length 1))) absCb) = some ⟨⟨10, 5⟩, ⟨70, 8⟩⟩ := by decide +kernel

/-- `bottom: 5; height: 7` -/
example : marginRectOf (absLayout blockEnv 1 (emptyAbs (((plainStyle.set .bottom (.length 5)).set
    .height (.length 7)).set .marginTop (.length 1))) absCb) = some ⟨⟨0, 37⟩, ⟨100, 8⟩⟩ := by decide +kernel

/-- Used margins at the two ends of an axis of an absolutely positioned box, for the specified
values `ms`, `me`: a value other than `auto` is used as given, percentages being of `width`;
`auto` is zero unless both offsets and the size are given (`fixed`).  Two `auto` margins are
then equal, except that, where `keepStart` holds, the first is zero if they would be negative. -/
def MarginsUsed (width : Length) (ms me : LengthOrPercentageOrAuto) (fixed : Prop)
    (keepStart : Bool) (s e : Length) : Prop :=
  (∀ v, ms = .length v → s = v) ∧ (∀ p, ms = .percentage p → s = width * p) ∧
  (∀ v, me = .length v → e = v) ∧ (∀ p, me = .percentage p → e = width * p) ∧
  (¬ fixed → (ms = .auto → s = 0) ∧ (me = .auto → e = 0)) ∧
  (ms = .auto → me = .auto → if keepStart && decide (s + e < 0) then s = 0 else s = e)

theorem solveAxis_margins (total pb width : Length) (ms me : LengthOrPercentageOrAuto)
    (solve : Length → Length × Length) (keepStart : Bool)
    (hsolve : ∀ x, if keepStart && decide ((solve x).1 + (solve x).2 < 0) then (solve x).1 = 0
      else (solve x).1 = (solve x).2)
    (o : AbsOffsets) (spec : LengthOrPercentageOrAuto) :
    MarginsUsed width ms me ((∃ s e, o = .both s e) ∧ spec ≠ .auto) keepStart
      (solveAxis total pb (ms.percentageRelativeTo width) (me.percentageRelativeTo width) solve o
        spec).2.2.1
      (solveAxis total pb (ms.percentageRelativeTo width) (me.percentageRelativeTo width) solve o
        spec).2.2.2 := by
  unfold MarginsUsed
  cases o with
  | both s e =>
    cases spec <;> cases ms <;> cases me <;>
      simp [solveAxis, LengthOrPercentageOrAuto.percentageRelativeTo, LengthOrAuto.autoIs]
    all_goals
      have := hsolve
      simpa using this _
  | _ => cases ms <;> cases me <;>
      simp [solveAxis, LengthOrPercentageOrAuto.percentageRelativeTo, LengthOrAuto.autoIs]

/-- C43: the margins of an absolutely positioned box.  (What a single `auto` margin is follows
from the equation for the axis.) -/
theorem C43_margins (E : TextEnv) (n : Nat) (a : AbsFragment) (cb : DefiniteContainingBlock)
    (f : Fragment) (h : absLayout E n a cb = .ok f) :
    ∃ g m children, f = .box a.style g m children ∧
      MarginsUsed cb.size.inline (a.style.val .marginLeft) (a.style.val .marginRight)
        ((∃ s e, a.inlineStart = .both s e) ∧ a.inlineSize ≠ .auto) true
        g.margin.inlineStart g.margin.inlineEnd ∧
      MarginsUsed cb.size.inline (a.style.val .marginTop) (a.style.val .marginBottom)
        ((∃ s e, a.blockStart = .both s e) ∧ a.blockSize ≠ .auto) false
        g.margin.blockStart g.margin.blockEnd := by
  obtain ⟨size, children, rfl⟩ := absLayout_eq_ok h
  refine ⟨_, _, _, rfl, ?_, ?_⟩
  · refine solveAxis_margins cb.size.inline _ cb.size.inline _ _ solveInlineAuto true ?_ _ _
    intro x
    unfold solveInlineAuto
    split <;> rename_i hx <;> simp <;> grind
  · refine solveAxis_margins cb.size.inline _ cb.size.inline _ _ solveBlockAuto false ?_ _ _
    intro x
    simp [solveBlockAuto]

/-- `left: 0; right: 0; width: 30; margin: auto` centers the box; likewise if it is too wide, it
starts at the left -/
example : (match absLayout blockEnv 1 (emptyAbs (((((plainStyle.set .left (.length 0)).set .right
      (.length 0)).set .width (.length 30)).set .marginLeft .auto).set .marginRight .auto)) absCb with
    | .ok (.box _ g _ _) => some (g.margin.inlineStart, g.margin.inlineEnd) | _ => none) = some (35, 35) ∧
    (match absLayout blockEnv 1 (emptyAbs (((((plainStyle.set .left (.length 0)).set .right
      (.length 0)).set .width (.length 130)).set .marginLeft .auto).set .marginRight .auto)) absCb with
    | .ok (.box _ g _ _) => some (g.margin.inlineStart, g.margin.inlineEnd) | _ => none) =
      some (0, -30) := by
  constructor <;> decide +kernel

/-- `top: 0; bottom: 0` in a containing block of size 100 × 50 gives a box of height 100;
`right: 0` alone, width 10, ends at 50 -/
theorem C43_witness :
    marginRectOf (absLayout blockEnv 1 (emptyAbs ((plainStyle.set .top (.length 0)).set .bottom
      (.length 0))) absCb) = some ⟨⟨0, 0⟩, ⟨100, 100⟩⟩ ∧
    marginRectOf (absLayout blockEnv 1 (emptyAbs ((plainStyle.set .right (.length 0)).set .width
      (.length 10))) absCb) = some ⟨⟨40, 0⟩, ⟨10, 0⟩⟩ := by
  constructor <;> decide +kernel

/-- What the children of a containing block of absolutely positioned boxes are: its contents
in normal flow, and then, if absolutely positioned boxes were `found` in it, these, laid out
in its padding area. -/
def HoldsAbsolute (absL : AbsLayout) (g : BoxGeom) (inFlow : List Fragment) (found : List AbsFragment)
    (children : List Fragment) : Prop :=
  let w := g.padding.inlineStart + g.contentRect.size.inline + g.padding.inlineEnd
  let h := g.padding.blockStart + g.contentRect.size.block + g.padding.blockEnd
  if found = [] then children = inFlow
  else ∃ fs, List.Forall₂ (fun a f => absL a ⟨⟨w, h⟩, (.horizontalTb, .ltr)⟩ = .ok f) found fs ∧
    children = inFlow ++ [.anonymous ⟨⟨-g.padding.inlineStart, -g.padding.blockStart⟩, ⟨w, h⟩⟩ fs
      (.horizontalTb, .ltr)]

theorem layoutAbsEach_forall {absL : AbsLayout} {cb : DefiniteContainingBlock} :
    ∀ {as : List AbsFragment} {fs : List Fragment}, layoutAbsEach absL cb as = .ok fs →
      List.Forall₂ (fun a f => absL a cb = .ok f) as fs
  | [], fs, h => by
    cases h
    exact .nil
  | a :: as, fs, h => by
    rw [layoutAbsEach] at h
    simp only [bind, Except.bind] at h
    split at h
    · cases h
    · rename_i f hf
      split at h
      · cases h
      · rename_i fs' hfs
        cases h
        exact .cons hf (layoutAbsEach_forall hfs)

theorem inPositioned_holds {absL : AbsLayout} {g : BoxGeom} {found : List AbsFragment}
    {inFlow children : List Fragment}
    (h : inPositionedContainingBlock absL found inFlow g.contentRect.size g.padding
      (.horizontalTb, .ltr) = .ok children) : HoldsAbsolute absL g inFlow found children := by
  have e : (Rect.mk Vec2.zero g.contentRect.size).inflate g.padding =
      ⟨⟨-g.padding.inlineStart, -g.padding.blockStart⟩,
        ⟨g.padding.inlineStart + g.contentRect.size.inline + g.padding.inlineEnd,
          g.padding.blockStart + g.contentRect.size.block + g.padding.blockEnd⟩⟩ := by
    simp only [Rect.inflate, Vec2.zero, Sides.inlineSum, Sides.blockSum, Rect.mk.injEq, Vec2.mk.injEq]
    refine ⟨⟨?_, ?_⟩, ?_, ?_⟩ <;> ring
  unfold inPositionedContainingBlock at h
  rw [e] at h
  unfold HoldsAbsolute
  cases found with
  | nil =>
    cases h
    rfl
  | cons a as =>
    simp only [List.isEmpty_cons, Bool.false_eq_true, if_false, bind, Except.bind] at h
    split at h
    · cases h
    · rename_i fs hfs
      cases h
      rw [if_neg (by simp)]
      exact ⟨fs, layoutAbsEach_forall hfs, rfl⟩

theorem layoutInFlow_holds {absL : AbsLayout} {cb : ContainingBlock} {abs : List AbsFragment}
    {style : Style} {kind : BlockLevelKind}
    {contents : ContainingBlock → List AbsFragment → Bool → Except Panic (FlowChildren × List AbsFragment)}
    {f : Fragment} {out : List AbsFragment}
    (h : layoutInFlow absL cb abs style kind contents = .ok (f, out)) :
    ∃ g m children cb' collapsible fc found, f = .box style g m children ∧
      cb'.inlineSize = g.contentRect.size.inline ∧
      (style.val .position = Position.relative →
        contents cb' [] collapsible = .ok (fc, found) ∧ out = abs ∧
        HoldsAbsolute absL g fc.fragments found children) ∧
      (style.val .position ≠ Position.relative →
        contents cb' abs collapsible = .ok (fc, out) ∧ children = fc.fragments) := by
  have hrel : Position.isRelativelyPositioned (style.val .position) = true ↔
      style.val .position = Position.relative := by
    cases style.val .position <;> simp [Position.isRelativelyPositioned]
  unfold layoutInFlow at h
  simp only [bind, Except.bind] at h
  split at h
  · cases h
  · split at h
    · cases h
    · rename_i r hr
      split at h
      · cases h
      · rename_i children hch
        cases h
        by_cases hp : Position.isRelativelyPositioned (style.val .position) = true
        · rw [if_pos hp] at hr hch
          refine ⟨_, _, _, ⟨_, _, _⟩, _, r.1, r.2, rfl, rfl, fun _ => ⟨hr, if_pos hp, inPositioned_holds hch⟩,
            fun hn => absurd (hrel.1 hp) hn⟩
        · rw [if_neg hp] at hr hch
          cases hch
          refine ⟨_, _, _, ⟨_, (inFlowSizes cb style kind).blockSize, style.writingMode⟩,
            (inFlowSizes cb style kind).startCollapses, r.1, r.2, rfl, rfl, fun hn => absurd (hrel.2 hn) hp, fun _ => ⟨?_, rfl⟩⟩
          rw [if_neg hp]
          exact hr

/-- C43: the containing block of an absolutely positioned box is the padding area of the
innermost box around it that is relatively positioned … -/
theorem C43_containing_block (E : TextEnv) (n : Nat) (st : Style) (c : BlockContainer)
    (cb : ContainingBlock) (rank : Nat) (abs : List AbsFragment) (fl : Bool) (f : Fragment)
    (out : List AbsFragment)
    (h : boxLayout E (n + 1) (.sameFormattingContextBlock st c) cb rank abs fl = .ok (f, out)) :
    ∃ g m children cb' collapsible fc found, f = .box st g m children ∧
      cb'.inlineSize = g.contentRect.size.inline ∧
      (st.val .position = Position.relative →
        containerLayout E (boxLayout E n) c cb' rank [] fl collapsible = .ok (fc, found) ∧ out = abs ∧
        HoldsAbsolute (absLayout E n) g fc.fragments found children) ∧
      (st.val .position ≠ Position.relative →
        containerLayout E (boxLayout E n) c cb' rank abs fl collapsible = .ok (fc, out) ∧
        children = fc.fragments) := by
  rw [boxLayout] at h
  exact layoutInFlow_holds (contents := fun cb nested collapsible =>
    containerLayout E (boxLayout E n) c cb rank nested fl collapsible) h

/-- C43: … (the same for a box with an independent formatting context) … -/
theorem C43_containing_block_independent (E : TextEnv) (n : Nat) (st : Style) (c : Bfc)
    (cb : ContainingBlock) (rank : Nat) (abs : List AbsFragment) (fl : Bool) (f : Fragment)
    (out : List AbsFragment)
    (h : boxLayout E (n + 1) (.independent st c) cb rank abs fl = .ok (f, out)) :
    ∃ g m children cb' fc found, f = .box st g m children ∧
      cb'.inlineSize = g.contentRect.size.inline ∧
      (st.val .position = Position.relative →
        bfcLayout E (boxLayout E n) c cb' rank [] = .ok (fc, found) ∧ out = abs ∧
        HoldsAbsolute (absLayout E n) g fc.fragments found children) ∧
      (st.val .position ≠ Position.relative →
        bfcLayout E (boxLayout E n) c cb' rank abs = .ok (fc, out) ∧ children = fc.fragments) := by
  rw [boxLayout] at h
  obtain ⟨g, m, ch, cb', _, fc, found, h1, h2, h3, h4⟩ := layoutInFlow_holds
    (contents := fun cb nested _ => bfcLayout E (boxLayout E n) c cb rank nested) h
  exact ⟨g, m, ch, cb', fc, found, h1, h2, h3, h4⟩

/-- C43: … or absolutely positioned itself … -/
theorem C43_containing_block_absolute (E : TextEnv) (n : Nat) (a : AbsFragment)
    (cb : DefiniteContainingBlock) (f : Fragment) (h : absLayout E (n + 1) a cb = .ok f) :
    ∃ g m children cb' fc found, f = .box a.style g m children ∧
      cb'.inlineSize = g.contentRect.size.inline ∧
      bfcLayout E (boxLayout E n) a.contents cb' 0 [] = .ok (fc, found) ∧
      HoldsAbsolute (absLayout E n) g fc.fragments found children := by
  rw [absLayout] at h
  unfold absLayoutWith at h
  simp only [bind, Except.bind] at h
  split at h
  · cases h
  · split at h
    · cases h
    · rename_i r hr
      split at h
      · cases h
      · rename_i children hch
        cases h
        exact ⟨⟨_, _, _, _⟩, _, _, ⟨_, _, _⟩, r.1, r.2, rfl, rfl, hr, inPositioned_holds hch⟩

/-- C43: … or else the page; those are painted after everything else. -/
theorem C43_page (E : TextEnv) (root : Bfc) (size : PVec2 Length) (fs : List Fragment)
    (h : rootLayout E root size = .ok fs) :
    ∃ n fc found more,
      bfcLayout E (boxLayout E n) root ⟨size.x, .length size.y, (.horizontalTb, .ltr)⟩ 0 [] =
        .ok (fc, found) ∧
      List.Forall₂ (fun a f => absLayout E n a ⟨⟨size.x, size.y⟩, (.horizontalTb, .ltr)⟩ = .ok f)
        found more ∧
      fs = fc.fragments ++ more := by
  unfold rootLayout rootLayoutWith at h
  simp only [bind, Except.bind] at h
  split at h
  · cases h
  · rename_i r hr
    split at h
    · cases h
    · rename_i more hm
      cases h
      exact ⟨_, r.1, r.2, more, hr, layoutAbsEach_forall hm, rfl⟩

/-- positions and sizes of fragments, with those of their children -/
def rectsOf : Nat → List Fragment → List (Rect Length)
  | 0, _ => []
  | n + 1, fs => fs.flatMap fun f => match f with
    | .box _ g _ cs => g.contentRect :: rectsOf n cs
    | .anonymous r cs _ => r :: rectsOf n cs
    | .text _ r _ => [r]

/-- `left: 3px; top: 0` in a relatively positioned box with paddings 10 and 5: measured from
the corner of the padding area; without `position: relative` from the corner of the page. -/
example :
    (match rootLayout blockEnv (.mk (.blockLevelBoxes [.sameFormattingContextBlock
      ((((plainStyle.set .position Position.relative).set .paddingLeft (.length 10)).set .paddingTop
        (.length 5)).set .height (.length 60)) (.blockLevelBoxes
        [.outOfFlowAbsolutelyPositionedBox (((plainStyle.set .left (.length 3)).set .top (.length 0)).set
          .width (.length 7)) (.mk (.blockLevelBoxes []) false)])]) false) ⟨100, 50⟩ with
    | .ok fs => rectsOf 4 fs
    | _ => []) = [⟨⟨10, 5⟩, ⟨90, 60⟩⟩, Rect.zero, ⟨⟨-10, -5⟩, ⟨100, 65⟩⟩, ⟨⟨3, 0⟩, ⟨7, 0⟩⟩] ∧
    (match rootLayout blockEnv (.mk (.blockLevelBoxes [.sameFormattingContextBlock
      (((plainStyle.set .paddingLeft (.length 10)).set .paddingTop
        (.length 5)).set .height (.length 60)) (.blockLevelBoxes
        [.outOfFlowAbsolutelyPositionedBox (((plainStyle.set .left (.length 3)).set .top (.length 0)).set
          .width (.length 7)) (.mk (.blockLevelBoxes []) false)])]) false) ⟨100, 50⟩ with
    | .ok fs => rectsOf 4 fs
    | _ => []) = [⟨⟨10, 5⟩, ⟨90, 60⟩⟩, Rect.zero, ⟨⟨3, 0⟩, ⟨7, 0⟩⟩] := by
  constructor <;> decide +kernel

/-- C43 is false as stated, in both axes (a box with `top: 0; bottom: 0` gets the width of its
containing block as height). -/
theorem C43_full_false : ¬ C43_full := by
  intro h
  have h1 := C43_witness.1
  unfold marginRectOf at h1
  split at h1
  · rename_i st g m ch hr
    obtain ⟨g', m', ch', h2, h3, h4⟩ := h _ _ _ _ _ hr
    injection h2 with _ h2
    subst h2
    simp only [Option.some.injEq] at h1
    rw [h1] at h4
    have e1 : (emptyAbs ((plainStyle.set .top (.length 0)).set .bottom (.length 0))).blockStart =
      .both (.length 0) (.length 0) := by decide +kernel
    have e2 : (emptyAbs ((plainStyle.set .top (.length 0)).set .bottom (.length 0))).blockSize = .auto := by
      decide +kernel
    rw [e1, e2] at h4
    have h5 := h4.2.2 (.inl rfl)
    simp [absCb, LengthOrPercentage.percentageRelativeTo] at h5
  · cases h1

end Sinab
