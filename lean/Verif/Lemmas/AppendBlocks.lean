import Verif.Lemmas.AppendLayout

/-! Layout of blocks to which content is added at the end: the texts. -/

namespace Sinab.Append

/-! ## Trees without floats -/

mutual

theorem noFloats_noAbs : ∀ c : BlockContainer, noAbs c → noAbs c.noFloats
  | .blockLevelBoxes bs, h => by
    simp only [BlockContainer.noFloats, noAbs] at h ⊢
    exact blocksNoFloats_noAbs bs h
  | .inlineFormattingContext _ bs, h => by
    simp only [BlockContainer.noFloats, noAbs] at h ⊢
    exact inlinesNoFloats_noAbs bs h

theorem bfcNoFloats_noAbs : ∀ c : Bfc, bfcNoAbs c → bfcNoAbs c.noFloats
  | .mk c _, h => by
    simp only [Bfc.noFloats, bfcNoAbs] at h ⊢
    exact noFloats_noAbs c h

theorem blockNoFloats_noAbs : ∀ b : BlockLevelBox, blockNoAbs b → blockNoAbs b.noFloats
  | .sameFormattingContextBlock _ c, h => by
    simp only [BlockLevelBox.noFloats, blockNoAbs] at h ⊢
    exact noFloats_noAbs c h
  | .outOfFlowAbsolutelyPositionedBox _ _, h => h.elim
  | .outOfFlowFloatBox _ _, _ => by simp [BlockLevelBox.noFloats, blockNoAbs, bfcNoAbs, noAbs, blocksNoAbs]
  | .independent _ c, h => by
    simp only [BlockLevelBox.noFloats, blockNoAbs] at h ⊢
    exact bfcNoFloats_noAbs c h

theorem blocksNoFloats_noAbs : ∀ bs : List BlockLevelBox, blocksNoAbs bs → blocksNoAbs (blockNoFloats bs)
  | [], _ => by simp [blockNoFloats, blocksNoAbs]
  | b :: bs, h => by
    simp only [blockNoFloats, blocksNoAbs] at h ⊢
    exact ⟨blockNoFloats_noAbs b h.1, blocksNoFloats_noAbs bs h.2⟩

theorem inlinesNoFloats_noAbs : ∀ bs : List InlineLevelBox, inlinesNoAbs bs → inlinesNoAbs (inlineNoFloats bs)
  | [], _ => by simp [inlineNoFloats, inlinesNoAbs]
  | .inlineBox _ _ _ cs :: bs, h => by
    simp only [inlineNoFloats, inlinesNoAbs, inlineNoAbs] at h ⊢
    exact ⟨inlinesNoFloats_noAbs cs h.1, inlinesNoFloats_noAbs bs h.2⟩
  | .textRun .. :: bs, h => by
    simp only [inlineNoFloats, inlinesNoAbs, inlineNoAbs, true_and] at h ⊢
    exact inlinesNoFloats_noAbs bs h
  | .outOfFlowAbsolutelyPositionedBox _ _ :: _, h => h.1.elim
  | .outOfFlowFloatBox _ _ :: bs, h => by
    simp only [inlineNoFloats, inlinesNoAbs] at h ⊢
    exact inlinesNoFloats_noAbs bs h.2

end

mutual

theorem noFloats_twice : ∀ c : BlockContainer, c.noFloats.noFloats = c.noFloats
  | .blockLevelBoxes bs => by simp only [BlockContainer.noFloats, blockNoFloats_twice bs]
  | .inlineFormattingContext _ bs => by simp only [BlockContainer.noFloats, inlineNoFloats_twice bs]

theorem bfcNoFloats_twice : ∀ c : Bfc, c.noFloats.noFloats = c.noFloats
  | .mk c _ => by simp only [Bfc.noFloats, noFloats_twice c]

theorem boxNoFloats_twice : ∀ b : BlockLevelBox, b.noFloats.noFloats = b.noFloats
  | .sameFormattingContextBlock _ c => by simp only [BlockLevelBox.noFloats, noFloats_twice c]
  | .outOfFlowAbsolutelyPositionedBox _ c => by simp only [BlockLevelBox.noFloats, bfcNoFloats_twice c]
  | .outOfFlowFloatBox _ _ => by simp only [BlockLevelBox.noFloats]
  | .independent _ c => by simp only [BlockLevelBox.noFloats, bfcNoFloats_twice c]

theorem blockNoFloats_twice : ∀ bs : List BlockLevelBox, blockNoFloats (blockNoFloats bs) = blockNoFloats bs
  | [] => by simp only [blockNoFloats]
  | b :: bs => by simp only [blockNoFloats, boxNoFloats_twice b, blockNoFloats_twice bs]

theorem inlineNoFloats_twice : ∀ bs : List InlineLevelBox, inlineNoFloats (inlineNoFloats bs) = inlineNoFloats bs
  | [] => by simp only [inlineNoFloats]
  | .inlineBox _ _ _ cs :: bs => by simp only [inlineNoFloats, inlineNoFloats_twice cs, inlineNoFloats_twice bs]
  | .textRun .. :: bs => by simp only [inlineNoFloats, inlineNoFloats_twice bs]
  | .outOfFlowAbsolutelyPositionedBox _ c :: bs => by
    simp only [inlineNoFloats, bfcNoFloats_twice c, inlineNoFloats_twice bs]
  | .outOfFlowFloatBox _ _ :: bs => by simp only [inlineNoFloats, inlineNoFloats_twice bs]

end

theorem blockNoFloats_append : ∀ a b : List BlockLevelBox, blockNoFloats (a ++ b) = blockNoFloats a ++ blockNoFloats b
  | [], b => by simp only [blockNoFloats, List.nil_append]
  | x :: a, b => by simp only [List.cons_append, blockNoFloats, blockNoFloats_append a b]

theorem inlineNoFloats_append : ∀ a b : List InlineLevelBox,
    inlineNoFloats (a ++ b) = inlineNoFloats a ++ inlineNoFloats b
  | [], b => by simp only [inlineNoFloats, List.nil_append]
  | .inlineBox _ _ _ cs :: a, b => by simp only [List.cons_append, inlineNoFloats, inlineNoFloats_append a b]
  | .textRun .. :: a, b => by simp only [List.cons_append, inlineNoFloats, inlineNoFloats_append a b]
  | .outOfFlowAbsolutelyPositionedBox _ c :: a, b => by
    simp only [List.cons_append, inlineNoFloats, inlineNoFloats_append a b]
  | .outOfFlowFloatBox _ _ :: a, b => by simp only [List.cons_append, inlineNoFloats, inlineNoFloats_append a b]

theorem inlineNoFloats_fixed : ∀ bs : List InlineLevelBox, inlinesFixed bs → inlinesFixed (inlineNoFloats bs)
  | [], _ => by simp [inlineNoFloats, inlinesFixed]
  | .inlineBox _ _ _ cs :: bs, h => by
    simp only [inlineNoFloats, inlinesFixed, inlineFixed] at h ⊢
    exact ⟨⟨h.1.1, inlineNoFloats_fixed cs h.1.2⟩, inlineNoFloats_fixed bs h.2⟩
  | .textRun .. :: bs, h => by
    simp only [inlineNoFloats, inlinesFixed, inlineFixed, true_and] at h ⊢
    exact inlineNoFloats_fixed bs h
  | .outOfFlowAbsolutelyPositionedBox _ _ :: bs, h => by
    simp only [inlineNoFloats, inlinesFixed, inlineFixed, true_and] at h ⊢
    exact inlineNoFloats_fixed bs h
  | .outOfFlowFloatBox _ _ :: bs, h => by
    simp only [inlineNoFloats, inlinesFixed] at h ⊢
    exact inlineNoFloats_fixed bs h.2

theorem longerInlines_noFloats {J : Font → Text → Text → Prop} {bs bs' : List InlineLevelBox} (h : LongerInlines J bs bs') :
    LongerInlines J (inlineNoFloats bs) (inlineNoFloats bs') := by
  induction h with
  | more bs m =>
    rw [inlineNoFloats_append]
    exact .more _ _
  | text bs st t t' f h =>
    simp only [inlineNoFloats_append, inlineNoFloats]
    exact .text _ _ _ _ _ h
  | inside bs st first last cs cs' h ih =>
    simp only [inlineNoFloats_append, inlineNoFloats]
    exact .inside _ _ _ _ _ _ ih
  | trans bs bs' bs'' h h' ih ih' => exact .trans _ _ _ ih ih'

mutual

theorem longer_noFloats {w : Bool} {J : Font → Text → Text → Prop} : ∀ {c c' : BlockContainer}, Longer w inlinesFixed J c c' →
    Longer w inlinesFixed J c.noFloats c'.noFloats
  | _, _, .blocks bs more => by
    simp only [BlockContainer.noFloats, blockNoFloats_append]
    exact .blocks _ _
  | _, _, .empty c => by
    simp only [BlockContainer.noFloats, blockNoFloats]
    exact .empty _
  | _, _, .last bs more b b' h => by
    simp only [BlockContainer.noFloats, blockNoFloats_append, blockNoFloats]
    exact .last _ _ _ _ (longerBlock_noFloats h)
  | _, _, .words h st bs bs' hb => by
    simp only [BlockContainer.noFloats]
    exact .words h _ _ _ (longerInlines_noFloats hb)
  | _, _, .wrapped st bs bs' h hb more => by
    simp only [BlockContainer.noFloats, blockNoFloats, BlockLevelBox.noFloats]
    refine .wrapped st _ _ (inlineNoFloats_fixed bs h) (hb.imp (fun k => ⟨k.1, longerInlines_noFloats k.2⟩) ?_) _
    rintro rfl
    rfl

theorem longerBlock_noFloats {w : Bool} {J : Font → Text → Text → Prop} : ∀ {b b' : BlockLevelBox},
    LongerBlock w inlinesFixed J b b' → LongerBlock w inlinesFixed J b.noFloats b'.noFloats
  | _, _, .same st c c' h => by
    simp only [BlockLevelBox.noFloats]
    exact .same _ _ _ (longer_noFloats h)
  | _, _, .independent st c c' _ _ h => by
    simp only [BlockLevelBox.noFloats, Bfc.noFloats]
    exact .independent _ _ _ _ _ (longer_noFloats h)

end

/-! ## Layout gives solid fragments -/

/-- an in-flow block in which margins do not collapse through text -/
theorem box_solid {cb : ContainingBlock} {style : Style} {kind : BlockLevelKind} {fc : FlowChildren} {g : BoxGeom}
    (h : SolidChildren fc) :
    Solid (.box style g (collapseWithChildren (inFlowSizes cb style kind) fc).1 fc.fragments) := by
  intro k
  simp only [collapseWithChildren, Bool.and_eq_true] at k
  exact h k.2

theorem boxSolid (E : TextEnv) : ∀ n, BoxSolid (boxLayout E n)
  | 0 => by
    intro b cb rank f out _ _ h
    cases h
  | n + 1 => by
    intro b cb rank f out ha hn h
    rw [boxLayout] at h
    cases b with
    | outOfFlowAbsolutelyPositionedBox st c => exact ha.elim
    | outOfFlowFloatBox st c =>
      cases h
      exact ⟨rfl, rfl⟩
    | sameFormattingContextBlock st c =>
      simp only [BlockLevelBox.noFloats, BlockLevelBox.sameFormattingContextBlock.injEq, true_and] at hn
      obtain ⟨fc, g, h1, h2, rfl, -⟩ := inFlow_ok
        (contents := fun cb nested coll => containerLayout E (boxLayout E n) c cb rank nested false coll) h
        (fun _ _ _ _ k => (container_solid (boxSolid E n) ha hn k).1)
      exact ⟨h2, box_solid (container_solid (boxSolid E n) ha hn h1).2⟩
    | independent st c =>
      obtain ⟨c, fl⟩ := c
      simp only [BlockLevelBox.noFloats, Bfc.noFloats, BlockLevelBox.independent.injEq, Bfc.mk.injEq, true_and] at hn
      obtain ⟨hn, rfl⟩ := hn
      obtain ⟨fc, g, h1, h2, rfl, -⟩ := inFlow_ok
        (contents := fun cb nested _ => bfcLayout E (boxLayout E n) (.mk c false) cb rank nested) h
        (fun _ _ _ _ k => (bfc_solid (boxSolid E n) ha hn k).1)
      exact ⟨h2, box_solid (bfc_solid (boxSolid E n) ha hn h1).2⟩

/-! ## The texts -/

/-- what is compared: all, or all but the last line -/
def cut (w : Bool) (fs : List Fragment) : List Fragment := if w then withoutLastLine fs else fs

mutual

theorem fragment_withoutLastLine (x y : ℚ) : ∀ f : Fragment,
    textBoxesAll x y f.withoutLastLine <+: f.textBoxes x y
  | .box st g m cs => by
    simp only [Fragment.withoutLastLine, textBoxesAll, Fragment.textBoxes, List.append_nil]
    exact withoutLastLine_prefix _ _ cs
  | .anonymous .. => by simp [Fragment.withoutLastLine, textBoxesAll]
  | .text .. => by simp [Fragment.withoutLastLine, textBoxesAll]

theorem withoutLastLine_prefix (x y : ℚ) : ∀ fs : List Fragment,
    textBoxesAll x y (withoutLastLine fs) <+: textBoxesAll x y fs
  | [] => by simp [withoutLastLine]
  | f :: fs => by
    rw [withoutLastLine]
    split
    · rename_i h
      rw [List.isEmpty_iff] at h
      subst h
      simp only [textBoxesAll, List.append_nil]
      exact fragment_withoutLastLine x y f
    · simp only [textBoxesAll]
      exact List.prefix_append_right_inj _ |>.2 (withoutLastLine_prefix x y fs)

end

theorem cut_prefix (w : Bool) (x y : ℚ) (fs : List Fragment) : textBoxesAll x y (cut w fs) <+: textBoxesAll x y fs := by
  cases w with
  | true => exact withoutLastLine_prefix x y fs
  | false => exact List.prefix_rfl

theorem withoutLastLine_append : ∀ (a b : List Fragment), b ≠ [] → withoutLastLine (a ++ b) = a ++ withoutLastLine b
  | [], b, _ => rfl
  | f :: a, b, h => by
    rw [List.cons_append, withoutLastLine, withoutLastLine_append a b h, if_neg]
    · rfl
    · simp [h]

theorem cut_append (w : Bool) (a b : List Fragment) (h : b ≠ []) : cut w (a ++ b) = a ++ cut w b := by
  cases w with
  | true => exact withoutLastLine_append a b h
  | false => rfl

theorem cut_box (w : Bool) (st : Style) (g : BoxGeom) (m : CollapsedBlockMargins) (cs : List Fragment) :
    cut w [.box st g m cs] = [.box st g m (cut w cs)] := by
  cases w with
  | true => rfl
  | false => rfl

/-- the texts are first among those of the other -/
def Ext (w : Bool) (fs fs' : List Fragment) : Prop := ∀ x y, textBoxesAll x y (cut w fs) <+: textBoxesAll x y fs'

/-- contents, and longer contents -/
structure Rel (w : Bool) (fc fc' : FlowChildren) : Prop where
  ext : Ext w fc.fragments fc'.fragments
  start : ¬ Textless fc.fragments → fc.margins.collapsedThrough = false ∧ fc'.margins.collapsedThrough = false ∧
    fc'.margins.start = fc.margins.start

/-- a block, and a longer block -/
inductive RelBox (w : Bool) : Fragment → Fragment → Prop
  | mk {st : Style} {g g' : BoxGeom} {m m' : CollapsedBlockMargins} {cs cs' : List Fragment}
    (corner : g'.contentRect.startCorner = g.contentRect.startCorner) (ext : Ext w cs cs')
    (start : ¬ Textless cs → m.collapsedThrough = false ∧ m'.collapsedThrough = false ∧ m'.start = m.start) :
    RelBox w (.box st g m cs) (.box st g' m' cs')

/-- longer boxes have longer fragments -/
def BoxLonger (J : Font → Text → Text → Prop) (w : Bool) (boxL : BoxLayout) : Prop :=
  ∀ (b b' : BlockLevelBox) (cb : ContainingBlock) (rank : Nat) (f f' : Fragment) (o o' : List AbsFragment),
    LongerBlock w inlinesFixed J b b' → blockNoAbs b → blockNoAbs b' → b.noFloats = b → b'.noFloats = b' →
    boxL b cb rank [] false = .ok (f, o) → boxL b' cb rank [] false = .ok (f', o') → RelBox w f f'

theorem layoutEach_append {boxL : BoxLayout} {cb : ContainingBlock} : ∀ (a b : List BlockLevelBox) (k : Nat)
    (abs : List AbsFragment) (fs : List Fragment) (out : List AbsFragment),
    layoutEach boxL cb k (a ++ b) abs = .ok (fs, out) → ∃ fs1 fs2 o, layoutEach boxL cb k a abs = .ok (fs1, o) ∧
      layoutEach boxL cb (k + a.length) b o = .ok (fs2, out) ∧ fs = fs1 ++ fs2
  | [], b, k, abs, fs, out, h => ⟨[], fs, abs, rfl, h, rfl⟩
  | x :: a, b, k, abs, fs, out, h => by
    obtain ⟨⟨f, o1⟩, h1, h⟩ := bind_eq_ok.1 h
    obtain ⟨⟨fs1, o2⟩, h2, h⟩ := bind_eq_ok.1 h
    cases h
    obtain ⟨g1, g2, o, e1, e2, rfl⟩ := layoutEach_append a b _ _ _ _ h2
    refine ⟨f :: g1, g2, o, ?_, ?_, rfl⟩
    · simp only [layoutEach, h1, e1, bind, Except.bind, pure, Except.pure]
    · rw [List.length_cons, Nat.add_comm a.length 1, ← Nat.add_assoc]
      exact e2

theorem textless_box {st : Style} {g : BoxGeom} {m : CollapsedBlockMargins} {cs : List Fragment} :
    Textless [.box st g m cs] ↔ Textless cs := by
  constructor
  · intro h x y
    have := h (x - g.contentRect.startCorner.inline) (y - g.contentRect.startCorner.block)
    simpa only [textBoxesAll, Fragment.textBoxes, List.append_nil, sub_add_cancel] using this
  · exact Textless.box

theorem placed_children {st st1 : PlacementState} {style : Style} {g : BoxGeom} {m : CollapsedBlockMargins}
    {cs : List Fragment} {r : Fragment} (h : placeFragment st (.box style g m cs) = .ok (r, st1)) :
    ∃ g', r = .box style g' m cs := by
  rw [placeFragment] at h
  simp only at h
  split at h
  · split at h
    · cases h
    · split at h
      · cases h
        exact ⟨_, rfl⟩
      · cases h
        exact ⟨_, rfl⟩
  · split at h <;> cases h <;> exact ⟨_, rfl⟩

theorem placed_apart {st st1 : PlacementState} {style : Style} {g : BoxGeom} {m : CollapsedBlockMargins}
    {cs : List Fragment} {r : Fragment} (hm : m.collapsedThrough = false)
    (h : placeFragment st (.box style g m cs) = .ok (r, st1)) :
    r = .box style { g with contentRect := g.contentRect.addBlock ((if st.collapses then st.currentMargin
        else st.currentMargin.adjoin m.start).solve + st.position) } m cs ∧
      st1.collapses = false ∧
      st1.startMargin = if st.collapses then st.startMargin.adjoin m.start else st.startMargin := by
  rw [placeFragment] at h
  simp only [hm, Bool.false_eq_true, if_false] at h
  cases hc : st.collapses with
  | true =>
    rw [hc] at h
    simp only [if_true] at h
    split at h
    · cases h
    · cases h
      exact ⟨rfl, rfl, rfl⟩
  | false =>
    rw [hc] at h
    simp only [Bool.false_eq_true, if_false] at h
    cases h
    exact ⟨rfl, rfl, rfl⟩

theorem ext_textless {w : Bool} {fs fs' : List Fragment} (h : Textless fs) : Ext w fs fs' := by
  intro x y
  have := cut_prefix w x y fs
  rw [h x y, List.prefix_nil] at this
  rw [this]
  exact List.nil_prefix

/-- placing a block, and a longer one instead -/
theorem placeFragment_longer {w : Bool} {st st1 st1' : PlacementState} {f f' r r' : Fragment} (h : RelBox w f f')
    (h1 : placeFragment st f = .ok (r, st1)) (h1' : placeFragment st f' = .ok (r', st1')) :
    Ext w [r] [r'] ∧ (¬ Textless [r] → st1.collapses = false ∧ st1'.collapses = false ∧
      st1'.startMargin = st1.startMargin) := by
  obtain ⟨corner, ext, start⟩ := h
  rename_i style g g' m m' cs cs'
  by_cases ht : Textless cs
  · obtain ⟨g1, rfl⟩ := placed_children h1
    exact ⟨ext_textless (Textless.box ht), fun k => absurd (Textless.box ht) k⟩
  · obtain ⟨a, b, c⟩ := start ht
    obtain ⟨rfl, p, q⟩ := placed_apart a h1
    obtain ⟨rfl, p', q'⟩ := placed_apart b h1'
    refine ⟨?_, fun _ => ⟨p, p', by rw [q', q, c]⟩⟩
    intro x y
    rw [cut_box]
    simp only [textBoxesAll, Fragment.textBoxes, List.append_nil, Rect.addBlock, corner, c]
    exact ext _ _

/-! ## Anonymous blocks -/

theorem anonymous_padding (p : Option Style) :
    (Style.anonymousInheritingFrom p).padding = ⟨.length 0, .length 0, .length 0, .length 0⟩ := rfl

theorem anonymous_border (p : Option Style) :
    (Style.anonymousInheritingFrom p).borderWidth = ⟨.length 0, .length 0, .length 0, .length 0⟩ := rfl

theorem anonymous_margin (p : Option Style) :
    (Style.anonymousInheritingFrom p).margin = ⟨.length 0, .length 0, .length 0, .length 0⟩ := rfl

theorem anonymous_boxSize (p : Option Style) : (Style.anonymousInheritingFrom p).boxSize = ⟨.auto, .auto⟩ := rfl

theorem anonymous_sizes (p : Option Style) (cb : ContainingBlock) :
    inFlowSizes cb (Style.anonymousInheritingFrom p) .sameFormattingContextBlock =
      ⟨⟨0, 0, 0, 0⟩, ⟨0, 0, 0, 0⟩, ⟨0, 0, 0, 0⟩, cb.inlineSize, .auto, true, true⟩ := by
  unfold inFlowSizes
  rw [anonymous_padding, anonymous_border, anonymous_margin, anonymous_boxSize]
  simp [Sides.percentagesRelativeTo, Sides.percentagesOrAutoRelativeTo, Sides.map, Sides.autoIs,
    LengthOrPercentage.percentageRelativeTo, LengthOrPercentageOrAuto.percentageRelativeTo, LengthOrAuto.autoIs,
    Sides.inlineSum]
  refine ⟨?_, ?_, ?_⟩
  · show ((0 : ℚ) + 0) + (0 + 0) = 0
    norm_num
  · show (0 : ℚ) + 0 = 0
    norm_num
  · show (0 : ℚ) + 0 = 0
    norm_num

theorem anonymous_adjustement (p : Option Style) (w : Length) (h : LengthOrAuto) :
    relativeAdjustement (Style.anonymousInheritingFrom p) w h = ⟨0, 0⟩ := rfl

/-- layout of an anonymous block with inline contents -/
def Wraps (E : TextEnv) (boxL : BoxLayout) : Prop :=
  ∀ (p : Option Style) (st : Style) (bs : List InlineLevelBox) (cb : ContainingBlock) (rank : Nat) (f : Fragment)
    (out : List AbsFragment), inlinesNoAbs bs → boxL (.sameFormattingContextBlock (Style.anonymousInheritingFrom p)
      (.inlineFormattingContext st bs)) cb rank [] false = .ok (f, out) →
    ∃ fc g m, ifcLayout E st bs ⟨cb.inlineSize, .auto, cb.mode⟩ rank [] = .ok (fc, []) ∧
      f = .box (Style.anonymousInheritingFrom p) g m fc.fragments ∧ g.contentRect.startCorner = ⟨0, 0⟩ ∧
      m.collapsedThrough = false ∧ m.start = .zero

theorem ifc_margins {E : TextEnv} {st : Style} {bs : List InlineLevelBox} {cb : ContainingBlock} {rank : Nat}
    {abs out : List AbsFragment} {fc : FlowChildren} (h : ifcLayout E st bs cb rank abs = .ok (fc, out)) :
    fc.margins = .zero := by
  obtain ⟨⟨s, o⟩, -, h⟩ := bind_eq_ok.1 h
  cases h
  rfl

theorem inFlow_mode {absL : AbsLayout} {cb : ContainingBlock} {abs : List AbsFragment} {style : Style}
    {kind : BlockLevelKind}
    {contents : ContainingBlock → List AbsFragment → Bool → Except Panic (FlowChildren × List AbsFragment)}
    {r : Fragment × List AbsFragment} (h : layoutInFlow absL cb abs style kind contents = .ok r) :
    cb.mode = style.writingMode := by
  unfold layoutInFlow at h
  simp only at h
  split at h
  · cases h
  · rename_i hm
    exact not_not.1 hm

theorem boxWraps (E : TextEnv) : ∀ n, Wraps E (boxLayout E n)
  | 0 => by
    intro p st bs cb rank f out _ h
    cases h
  | n + 1 => by
    intro p st bs cb rank f out ha h
    rw [boxLayout] at h
    have hm := inFlow_mode
      (contents := fun cb nested coll => containerLayout E (boxLayout E n) (.inlineFormattingContext st bs) cb rank nested
        false coll) h
    have none : ∀ cb coll fc o, containerLayout E (boxLayout E n) (.inlineFormattingContext st bs) cb rank [] false coll =
        .ok (fc, o) → o = [] := by
      intro cb coll fc o k
      obtain ⟨L, new, -, h1, -, h2⟩ := ifcLayout_good E st bs cb rank (inlinesNoAbs_sound bs ha)
      have k' : ifcLayout E st bs cb rank [] = .ok (fc, o) := k
      rw [h1 []] at k'
      rw [inlines_absBoxes bs ha, List.map_eq_nil_iff] at h2
      subst h2
      cases k'
      rfl
    obtain ⟨fc, g, h1, -, rfl, h2⟩ := inFlow_ok
      (contents := fun cb nested coll => containerLayout E (boxLayout E n) (.inlineFormattingContext st bs) cb rank nested
        false coll) h none
    rw [anonymous_sizes, anonymous_adjustement] at h2
    rw [anonymous_sizes] at h1 ⊢
    rw [← hm] at h1
    have h1' : ifcLayout E st bs ⟨cb.inlineSize, .auto, cb.mode⟩ rank [] = .ok (fc, []) := h1
    have hz := ifc_margins h1'
    refine ⟨fc, g, _, h1', rfl, ?_, ?_, ?_⟩
    · rw [h2]
      simp [InFlowSizes.pb]
      constructor
      · show (0 : ℚ) + 0 = 0
        norm_num
      · show (0 : ℚ) + 0 = 0
        norm_num
    · simp [collapseWithChildren, hz, CollapsedBlockMargins.zero]
    · simp [collapseWithChildren, hz, CollapsedBlockMargins.zero, CollapsedBlockMargins.fromMargin, CollapsedMargin.zero,
        CollapsedMargin.new, CollapsedMargin.adjoin]

/-! ## Containers -/

theorem blockNoFloats_length : ∀ bs : List BlockLevelBox, (blockNoFloats bs).length = bs.length
  | [] => rfl
  | b :: bs => by simp only [blockNoFloats, List.length_cons, blockNoFloats_length bs]

theorem ext_append {w : Bool} {a b c : List Fragment} (hb : b ≠ []) (h : Ext w b c) : Ext w (a ++ b) (a ++ c) := by
  intro x y
  rw [cut_append w a b hb, textBoxesAll_append, textBoxesAll_append]
  exact List.prefix_append_right_inj _ |>.2 (h x y)

theorem ext_more {w : Bool} {a b c : List Fragment} (h : Ext w a b) : Ext w a (b ++ c) := by
  intro x y
  rw [textBoxesAll_append]
  exact (h x y).trans (List.prefix_append _ _)

theorem ext_lines {w : Bool} {E : TextEnv} {st : Style} {bs bs' : List InlineLevelBox} {cb : ContainingBlock} {rank : Nat}
    {out out' : List AbsFragment} {fc fc' : FlowChildren}
    (hm : (w = true ∧ LongerInlines (joinsOk E) bs bs') ∨ bs' = bs) (ha : inlinesNoAbs bs) (ha' : inlinesNoAbs bs')
    (h : ifcLayout E st bs cb rank [] = .ok (fc, out)) (h' : ifcLayout E st bs' cb rank [] = .ok (fc', out')) :
    Ext w fc.fragments fc'.fragments := by
  rcases hm with ⟨rfl, hb⟩ | rfl
  · obtain ⟨init, a, cs, mode, e1, t, e2⟩ := ifc_more hb (inlineSound_absOk _ (inlinesNoAbs_sound bs ha))
      (inlineSound_absOk _ (inlinesNoAbs_sound bs' ha')) h h'
    intro x y
    rw [e1, ← e2, cut_append true _ _ (by simp)]
    simp only [cut, if_true, withoutLastLine, List.isEmpty_nil, Fragment.withoutLastLine, List.append_nil,
      textBoxesAll_append]
    exact List.prefix_append _ _
  · rw [h] at h'
    cases h'
    exact fun x y => cut_prefix w x y _

theorem container_longer {E : TextEnv} {w : Bool} {boxL : BoxLayout} (hL : BoxLonger (joinsOk E) w boxL) (hS : BoxSolid boxL)
    (hW : Wraps E boxL) {c c' : BlockContainer} (h : Longer w inlinesFixed (joinsOk E) c c') (ha : noAbs c) (ha' : noAbs c')
    (hn : c.noFloats = c) (hn' : c'.noFloats = c') {cb : ContainingBlock} {rank : Nat} {coll : Bool}
    {fc fc' : FlowChildren} {out out' : List AbsFragment}
    (e : containerLayout E boxL c cb rank [] false coll = .ok (fc, out))
    (e' : containerLayout E boxL c' cb rank [] false coll = .ok (fc', out')) : Rel w fc fc' := by
  cases h with
  | blocks bs more =>
    obtain ⟨fs, o, st, h1, h2, h3, -, -⟩ := children_ok e
    obtain ⟨fs', o', st', h1', h2', h3', -, -⟩ := children_ok e'
    obtain ⟨g1, g2, o1, k1, k2, rfl⟩ := layoutEach_append _ _ _ _ _ _ h1'
    rw [h1] at k1
    cases k1
    obtain ⟨r1, st1, r2, p1, p2, p3⟩ := placeAll_append.1 h2'
    rw [h2] at p1
    cases p1
    simp only [BlockContainer.noFloats, BlockContainer.blockLevelBoxes.injEq] at hn hn'
    rw [blockNoFloats_append, hn] at hn'
    have hn2 := List.append_cancel_left hn'
    simp only [noAbs] at ha ha'
    obtain ⟨rfl, s1⟩ := layoutEach_solid hS _ _ _ _ ha hn h1
    obtain ⟨rfl, s2⟩ := layoutEach_solid hS _ _ _ _ (blocksNoAbs_append.1 ha').2 hn2 k2
    have q1 := placeAll_started _ _ _ _ s1 h2
    have q2 := placeAll_started _ _ _ _ s2 p2
    refine ⟨?_, fun k => ?_⟩
    · rw [p3]
      exact ext_more (fun x y => cut_prefix w x y _)
    · have hc : st.collapses = false := by
        by_contra hc
        exact k (q1.textless (Bool.not_eq_false _ ▸ hc))
      rw [h3, h3']
      exact ⟨hc, q2.kept hc⟩
  | empty c' =>
    obtain ⟨fs, o, st, h1, h2, h3, -, -⟩ := children_ok e
    cases h1
    have e0 : fc.fragments = [] := by
      injection h2 with h5
      injection h5 with h6 _
      exact h6.symm
    have ht : Textless fc.fragments := by
      rw [e0]
      exact fun _ _ => rfl
    exact ⟨ext_textless ht, fun k => absurd ht k⟩
  | last bs more b b' hb =>
    obtain ⟨fs, o, st, h1, h2, h3, -, -⟩ := children_ok e
    obtain ⟨fs', o', st', h1', h2', h3', -, -⟩ := children_ok e'
    obtain ⟨g1, g2, o1, k1, k2, rfl⟩ := layoutEach_append _ _ _ _ _ _ h1
    obtain ⟨g1', g2', o1', k1', k2', rfl⟩ := layoutEach_append _ _ _ _ _ _ h1'
    rw [k1] at k1'
    cases k1'
    obtain ⟨r1, st1, r2, p1, p2, p3⟩ := placeAll_append.1 h2
    obtain ⟨r1', st1', r2', p1', p2', p3'⟩ := placeAll_append.1 h2'
    rw [p1] at p1'
    cases p1'
    simp only [BlockContainer.noFloats, BlockContainer.blockLevelBoxes.injEq, blockNoFloats_append, blockNoFloats] at hn hn'
    have hl := blockNoFloats_length bs
    obtain ⟨n1, n2⟩ := List.append_inj hn hl
    obtain ⟨-, n2'⟩ := List.append_inj hn' hl
    simp only [List.cons.injEq, and_true] at n2 n2'
    simp only [noAbs, blocksNoAbs_append, blocksNoAbs, and_true] at ha ha'
    obtain ⟨rfl, s1⟩ := layoutEach_solid hS _ _ _ _ ha.1 n1 k1
    obtain ⟨⟨f, o2⟩, l1, k2⟩ := bind_eq_ok.1 k2
    cases k2
    obtain ⟨⟨f', o2'⟩, l1', k2'⟩ := bind_eq_ok.1 k2'
    obtain ⟨⟨fs2, o3⟩, l2', k2'⟩ := bind_eq_ok.1 k2'
    cases k2'
    obtain ⟨⟨r, st2⟩, m1, p2⟩ := bind_eq_ok.1 p2
    cases p2
    obtain ⟨⟨r', st2'⟩, m1', p2'⟩ := bind_eq_ok.1 p2'
    obtain ⟨⟨rs, st3⟩, m2', p2'⟩ := bind_eq_ok.1 p2'
    cases p2'
    obtain ⟨rfl, sf⟩ := hS _ _ _ _ _ ha'.2.1 n2'.1 l1'
    obtain ⟨-, s2⟩ := layoutEach_solid hS _ _ _ _ ha'.2.2 n2'.2 l2'
    obtain ⟨-, sb⟩ := hS _ _ _ _ _ ha.2 n2 l1
    have hr := hL _ _ _ _ _ _ _ _ hb ha.2 ha'.2.1 n2 n2'.1 l1 l1'
    obtain ⟨t1, t2⟩ := placeFragment_longer hr m1 m1'
    have q1 := placeAll_started _ _ _ _ s1 p1
    have q2 := placeFragment_started sb m1
    have q2' := placeFragment_started sf m1'
    have q3 := placeAll_started _ _ _ _ s2 m2'
    refine ⟨?_, fun k => ?_⟩
    · rw [p3, p3', show r' :: rs = [r'] ++ rs from rfl, ← List.append_assoc]
      exact ext_more (ext_append (by simp) t1)
    · rw [h3, h3']
      rw [p3, textless_append, not_and_or] at k
      by_cases hc : st1.collapses = false
      · obtain ⟨a1, a2⟩ := q2.kept hc
        obtain ⟨b1, b2⟩ := q2'.kept hc
        obtain ⟨c1, c2⟩ := q3.kept b1
        exact ⟨a1, c1, c2.trans (b2.trans a2.symm)⟩
      · rcases k with k | k
        · exact absurd (q1.textless (Bool.not_eq_false _ ▸ hc)) k
        · obtain ⟨a1, b1, b2⟩ := t2 k
          obtain ⟨c1, c2⟩ := q3.kept b1
          exact ⟨a1, c1, c2.trans b2⟩
  | words hw st bs bs' hb =>
    have z := ifc_margins (E := E) (st := st) e
    have z' := ifc_margins (E := E) (st := st) e'
    refine ⟨ext_lines (Or.inl ⟨hw, hb⟩) ha ha' e e', fun _ => ?_⟩
    rw [z, z']
    exact ⟨rfl, rfl, rfl⟩
  | wrapped st bs bs' hb hm more =>
    obtain ⟨fs', o', st', h1', h2', h3', -, -⟩ := children_ok e'
    simp only [noAbs, blocksNoAbs, blockNoAbs] at ha ha'
    simp only [BlockContainer.noFloats, BlockContainer.blockLevelBoxes.injEq, blockNoFloats, List.cons.injEq] at hn'
    obtain ⟨⟨f, o2⟩, l1, h1'⟩ := bind_eq_ok.1 h1'
    obtain ⟨⟨fs2, o3⟩, l2, h1'⟩ := bind_eq_ok.1 h1'
    cases h1'
    obtain ⟨rfl, -⟩ := hS _ _ _ _ _ (by simpa only [blockNoAbs, noAbs] using ha'.1) hn'.1 l1
    obtain ⟨-, s2⟩ := layoutEach_solid hS _ _ _ _ ha'.2 hn'.2 l2
    obtain ⟨⟨r, st1⟩, m1, h2'⟩ := bind_eq_ok.1 h2'
    obtain ⟨⟨rs, st2⟩, m2, h2'⟩ := bind_eq_ok.1 h2'
    injection h2' with h5
    injection h5 with h6 h4
    subst h4
    have q2 := placeAll_started _ _ _ _ s2 m2
    obtain ⟨fc1, g, mg, w1, rfl, w2, w3, w4⟩ := hW _ _ _ _ _ _ _ ha'.1 l1
    obtain ⟨rfl, t1, t2⟩ := placed_apart w3 m1
    have z := ifc_margins (E := E) (st := st) e
    have e0 : ifcLayout E st bs ⟨cb.inlineSize, cb.blockSize, cb.mode⟩ rank [] = .ok (fc, out) := e
    obtain ⟨out1, e1⟩ := ifc_unbothered E st bs (inlinesNoAbs_sound bs ha) hb cb.inlineSize cb.blockSize .auto cb.mode rank 0 e0
    have x1 := ext_lines hm ha ha'.1 e1 w1
    have zero : (if (PlacementState.start coll).collapses then (PlacementState.start coll).currentMargin
        else (PlacementState.start coll).currentMargin.adjoin mg.start).solve + (PlacementState.start coll).position = 0 := by
      rw [w4]
      simp [PlacementState.start, CollapsedMargin.zero, CollapsedMargin.adjoin, CollapsedMargin.solve]
    refine ⟨?_, fun _ => ?_⟩
    · rw [← h6]
      intro x y
      simp only [textBoxesAll, Fragment.textBoxes, Rect.addBlock, w2, zero, add_zero]
      exact (x1 x y).trans (List.prefix_append _ _)
    · obtain ⟨c1, c2⟩ := q2.kept t1
      rw [z, h3', c1, c2, t2, w4]
      refine ⟨rfl, rfl, ?_⟩
      simp [PlacementState.start, CollapsedMargin.zero, CollapsedMargin.adjoin, CollapsedBlockMargins.zero]

theorem bfc_longer {E : TextEnv} {w : Bool} {boxL : BoxLayout} (hL : BoxLonger (joinsOk E) w boxL) (hS : BoxSolid boxL)
    (hW : Wraps E boxL) {c c' : BlockContainer} (h : Longer w inlinesFixed (joinsOk E) c c') (ha : noAbs c) (ha' : noAbs c')
    (hn : c.noFloats = c) (hn' : c'.noFloats = c') {cb : ContainingBlock} {rank : Nat}
    {fc fc' : FlowChildren} {out out' : List AbsFragment}
    (e : bfcLayout E boxL (.mk c false) cb rank [] = .ok (fc, out))
    (e' : bfcLayout E boxL (.mk c' false) cb rank [] = .ok (fc', out')) : Rel w fc fc' := by
  obtain ⟨⟨fc1, out1⟩, h1, e⟩ := bind_eq_ok.1 e
  obtain ⟨⟨fc1', out1'⟩, h1', e'⟩ := bind_eq_ok.1 e'
  cases e
  cases e'
  have r := container_longer hL hS hW h ha ha' hn hn' h1 h1'
  exact ⟨r.ext, fun k => ⟨rfl, rfl, (r.start k).2.2⟩⟩

theorem box_longer {w : Bool} {s : InFlowSizes} {st : Style} {fc fc' : FlowChildren} {g g' : BoxGeom}
    (hc : g'.contentRect.startCorner = g.contentRect.startCorner) (h : Rel w fc fc') :
    RelBox w (.box st g (collapseWithChildren s fc).1 fc.fragments)
      (.box st g' (collapseWithChildren s fc').1 fc'.fragments) := by
  refine ⟨hc, h.ext, fun k => ?_⟩
  obtain ⟨a, b, c⟩ := h.start k
  simp [collapseWithChildren, a, b, c]

theorem boxLonger (E : TextEnv) (w : Bool) : ∀ n, BoxLonger (joinsOk E) w (boxLayout E n)
  | 0 => by
    intro b b' cb rank f f' o o' _ _ _ _ _ e
    cases e
  | n + 1 => by
    intro b b' cb rank f f' o o' hb ha ha' hn hn' e e'
    rw [boxLayout] at e e'
    cases hb with
    | same st c c' h =>
      simp only [BlockLevelBox.noFloats, BlockLevelBox.sameFormattingContextBlock.injEq, true_and] at hn hn'
      obtain ⟨fc, g, h1, -, rfl, h2⟩ := inFlow_ok
        (contents := fun cb nested coll => containerLayout E (boxLayout E n) c cb rank nested false coll) e
        (fun _ _ _ _ k => (container_solid (boxSolid E n) ha hn k).1)
      obtain ⟨fc', g', h1', -, rfl, h2'⟩ := inFlow_ok
        (contents := fun cb nested coll => containerLayout E (boxLayout E n) c' cb rank nested false coll) e'
        (fun _ _ _ _ k => (container_solid (boxSolid E n) ha' hn' k).1)
      exact box_longer (h2'.trans h2.symm)
        (container_longer (boxLonger E w n) (boxSolid E n) (boxWraps E n) h ha ha' hn hn' h1 h1')
    | independent st c c' fl fl' h =>
      simp only [BlockLevelBox.noFloats, Bfc.noFloats, BlockLevelBox.independent.injEq, Bfc.mk.injEq, true_and] at hn hn'
      obtain ⟨hn, rfl⟩ := hn
      obtain ⟨hn', rfl⟩ := hn'
      obtain ⟨fc, g, h1, -, rfl, h2⟩ := inFlow_ok
        (contents := fun cb nested _ => bfcLayout E (boxLayout E n) (.mk c false) cb rank nested) e
        (fun _ _ _ _ k => (bfc_solid (boxSolid E n) ha hn k).1)
      obtain ⟨fc', g', h1', -, rfl, h2'⟩ := inFlow_ok
        (contents := fun cb nested _ => bfcLayout E (boxLayout E n) (.mk c' false) cb rank nested) e'
        (fun _ _ _ _ k => (bfc_solid (boxSolid E n) ha' hn' k).1)
      exact box_longer (h2'.trans h2.symm)
        (bfc_longer (boxLonger E w n) (boxSolid E n) (boxWraps E n) h ha ha' hn hn' h1 h1')

end Sinab.Append
