import Verif.Lemmas.Append
import Verif.Props.Held

/-! Layout of blocks to which content is added at the end. -/

namespace Sinab.Append

/-! ## Nothing absolutely positioned -/

mutual

theorem noAbs_sound : ∀ c : BlockContainer, noAbs c → c.sound
  | .blockLevelBoxes bs, h => blocksNoAbs_sound bs h
  | .inlineFormattingContext _ bs, h => inlinesNoAbs_sound bs h

theorem bfcNoAbs_sound : ∀ c : Bfc, bfcNoAbs c → c.sound
  | .mk c _, h => noAbs_sound c h

theorem blockNoAbs_sound : ∀ b : BlockLevelBox, blockNoAbs b → b.sound
  | .sameFormattingContextBlock _ c, h => noAbs_sound c h
  | .outOfFlowAbsolutelyPositionedBox _ _, h => h.elim
  | .outOfFlowFloatBox _ c, h => bfcNoAbs_sound c h
  | .independent _ c, h => bfcNoAbs_sound c h

theorem blocksNoAbs_sound : ∀ bs : List BlockLevelBox, blocksNoAbs bs → blockSound bs
  | [], _ => trivial
  | b :: bs, h => ⟨blockNoAbs_sound b h.1, blocksNoAbs_sound bs h.2⟩

theorem inlineNoAbs_sound : ∀ b : InlineLevelBox, inlineNoAbs b → b.sound
  | .inlineBox _ _ _ cs, h => inlinesNoAbs_sound cs h
  | .textRun .., _ => trivial
  | .outOfFlowAbsolutelyPositionedBox _ _, h => h.elim
  | .outOfFlowFloatBox _ c, h => bfcNoAbs_sound c h

theorem inlinesNoAbs_sound : ∀ bs : List InlineLevelBox, inlinesNoAbs bs → inlineSound bs
  | [], _ => trivial
  | b :: bs, h => ⟨inlineNoAbs_sound b h.1, inlinesNoAbs_sound bs h.2⟩

end

mutual

theorem inline_absBoxes : ∀ b : InlineLevelBox, inlineNoAbs b → b.absBoxes = []
  | .inlineBox _ _ _ cs, h => by
    simp only [InlineLevelBox.absBoxes]
    exact inlines_absBoxes cs h
  | .textRun .., _ => by simp only [InlineLevelBox.absBoxes]
  | .outOfFlowAbsolutelyPositionedBox _ _, h => h.elim
  | .outOfFlowFloatBox _ _, _ => by simp only [InlineLevelBox.absBoxes]

theorem inlines_absBoxes : ∀ bs : List InlineLevelBox, inlinesNoAbs bs → inlineAbsBoxes bs = []
  | [], _ => by simp only [inlineAbsBoxes]
  | b :: bs, h => by
    simp only [inlinesNoAbs] at h
    simp only [inlineAbsBoxes, inline_absBoxes b h.1, inlines_absBoxes bs h.2, List.nil_append]

end

mutual

theorem block_held : ∀ b : BlockLevelBox, blockNoAbs b → b.held = []
  | .sameFormattingContextBlock _ c, h => by
    simp only [BlockLevelBox.held, container_held c h, ite_self]
  | .outOfFlowAbsolutelyPositionedBox _ _, h => h.elim
  | .outOfFlowFloatBox _ _, _ => by simp only [BlockLevelBox.held]
  | .independent _ (.mk c _), h => by
    simp only [blockNoAbs, bfcNoAbs] at h
    simp only [BlockLevelBox.held, container_held c h, ite_self]

theorem container_held : ∀ c : BlockContainer, noAbs c → c.held = []
  | .blockLevelBoxes bs, h => by
    simp only [BlockContainer.held]
    exact blocks_held bs h
  | .inlineFormattingContext _ bs, h => by
    simp only [BlockContainer.held]
    exact inlines_absBoxes bs h

theorem blocks_held : ∀ bs : List BlockLevelBox, blocksNoAbs bs → heldAll bs = []
  | [], _ => by simp only [heldAll]
  | b :: bs, h => by
    simp only [blocksNoAbs] at h
    simp only [heldAll, block_held b h.1, blocks_held bs h.2, List.nil_append]

end

theorem blocksNoAbs_append : ∀ {a b : List BlockLevelBox}, blocksNoAbs (a ++ b) ↔ blocksNoAbs a ∧ blocksNoAbs b
  | [], b => by simp [blocksNoAbs]
  | x :: a, b => by simp only [List.cons_append, blocksNoAbs, blocksNoAbs_append (a := a), and_assoc]

theorem found_nothing {abs out : List AbsFragment} {bs : List (Style × Bfc)} (h : NewlyFound abs out bs) (hb : bs = []) :
    out = abs := by
  subst hb
  obtain ⟨new, h1, h2, -⟩ := h
  rw [List.map_eq_nil_iff] at h2
  rw [h1, h2, List.append_nil]

/-! ## Blocks with text keep margins apart -/

/-- if margins collapse through it then there is no text in it -/
def Solid : Fragment → Prop
  | .box _ _ m cs => m.collapsedThrough = true → Textless cs
  | .anonymous _ cs _ => cs = []
  | .text .. => True

theorem Textless.box {st : Style} {g : BoxGeom} {m : CollapsedBlockMargins} {cs : List Fragment} (h : Textless cs) :
    Textless [.box st g m cs] := by
  intro x y
  simp only [textBoxesAll, Fragment.textBoxes, List.append_nil]
  exact h _ _

theorem textless_append {a b : List Fragment} : Textless (a ++ b) ↔ Textless a ∧ Textless b := by
  constructor
  · intro h
    constructor <;> intro x y <;> have := h x y <;> rw [textBoxesAll_append, List.append_eq_nil_iff] at this
    exacts [this.1, this.2]
  · rintro ⟨h, h'⟩
    exact h.append h'

/-- what placing fragments does to the margin at the start -/
structure Started (st st' : PlacementState) (fs : List Fragment) : Prop where
  kept : st.collapses = false → st'.collapses = false ∧ st'.startMargin = st.startMargin
  textless : st'.collapses = true → Textless fs

theorem placeFragment_started {st st' : PlacementState} {f f' : Fragment} (hf : Solid f)
    (h : placeFragment st f = .ok (f', st')) : Started st st' [f'] := by
  cases f with
  | box style g m cs =>
    rw [placeFragment] at h
    simp only at h
    cases hc : st.collapses with
    | true =>
      rw [hc] at h
      simp only [if_true] at h
      split at h
      · cases h
      · cases ht : m.collapsedThrough with
        | true =>
          rw [ht] at h
          simp only [if_true] at h
          cases h
          exact ⟨fun k => (by rw [hc] at k; cases k), fun _ => Textless.box (hf ht)⟩
        | false =>
          rw [ht] at h
          simp only [Bool.false_eq_true, if_false] at h
          cases h
          exact ⟨fun k => (by rw [hc] at k; cases k), fun k => (by cases k)⟩
    | false =>
      rw [hc] at h
      simp only [Bool.false_eq_true, if_false] at h
      split at h
      · cases h
        exact ⟨fun _ => ⟨rfl, rfl⟩, fun k => (by cases k)⟩
      · cases h
        exact ⟨fun _ => ⟨rfl, rfl⟩, fun k => (by cases k)⟩
  | anonymous r cs mode =>
    rw [placeFragment] at h
    have hcs : cs = [] := hf
    subst hcs
    split at h
    · cases h
    · split at h
      · cases h
      · cases h
        exact ⟨fun k => ⟨k, rfl⟩, fun _ => fun x y => rfl⟩
  | text st r s => cases h

theorem placeAll_started : ∀ (fs fs' : List Fragment) (st st' : PlacementState), (∀ f ∈ fs, Solid f) →
    placeAll st fs = .ok (fs', st') → Started st st' fs'
  | [], fs', st, st', _, h => by
    cases h
    exact ⟨fun k => ⟨k, rfl⟩, fun _ => Textless.nil⟩
  | f :: fs, fs', st, st', hf, h => by
    obtain ⟨⟨f1, st1⟩, h1, h⟩ := bind_eq_ok.1 h
    obtain ⟨⟨fs1, st2⟩, h2, h⟩ := bind_eq_ok.1 h
    cases h
    have k1 := placeFragment_started (hf f (by simp)) h1
    have k2 := placeAll_started fs _ _ _ (fun g hg => hf g (by simp [hg])) h2
    refine ⟨fun k => ?_, fun k => ?_⟩
    · obtain ⟨a, b⟩ := k1.kept k
      obtain ⟨c, d⟩ := k2.kept a
      exact ⟨c, d.trans b⟩
    · have hc : st1.collapses = true := by
        by_contra hc
        rw [Bool.not_eq_true] at hc
        rw [(k2.kept hc).1] at k
        cases k
      exact (k1.textless hc).append (b := fs1) (k2.textless k)

/-- layout gives solid fragments -/
def BoxSolid (boxL : BoxLayout) : Prop :=
  ∀ (b : BlockLevelBox) (cb : ContainingBlock) (rank : Nat) (f : Fragment) (out : List AbsFragment), blockNoAbs b →
    b.noFloats = b → boxL b cb rank [] false = .ok (f, out) → out = [] ∧ Solid f

theorem layoutEach_solid {boxL : BoxLayout} (hb : BoxSolid boxL) {cb : ContainingBlock} : ∀ (bs : List BlockLevelBox)
    (k : Nat) (fs : List Fragment) (out : List AbsFragment), blocksNoAbs bs → blockNoFloats bs = bs →
    layoutEach boxL cb k bs [] = .ok (fs, out) → out = [] ∧ ∀ f ∈ fs, Solid f
  | [], k, fs, out, hs, _, h => by
    cases h
    simp
  | b :: bs, k, fs, out, hs, hn, h => by
    obtain ⟨⟨f, abs1⟩, h1, h⟩ := bind_eq_ok.1 h
    obtain ⟨⟨fs1, abs2⟩, h2, h⟩ := bind_eq_ok.1 h
    cases h
    simp only [blockNoFloats, List.cons.injEq] at hn
    obtain ⟨rfl, k1⟩ := hb _ _ _ _ _ hs.1 hn.1 h1
    obtain ⟨rfl, k2⟩ := layoutEach_solid hb bs _ _ _ hs.2 hn.2 h2
    refine ⟨rfl, fun x hx => ?_⟩
    rcases List.mem_cons.1 hx with rfl | hx
    · exact k1
    · exact k2 x hx

/-- layout of blocks without absolutely positioned ones -/
theorem children_ok {boxL : BoxLayout} {bs : List BlockLevelBox} {cb : ContainingBlock} {rank : Nat} {coll : Bool}
    {fc : FlowChildren} {out : List AbsFragment}
    (h : layoutBlockLevelChildren boxL bs cb rank [] false coll = .ok (fc, out)) :
    ∃ fs o st, layoutEach boxL cb 0 bs [] = .ok (fs, o) ∧ placeAll (.start coll) fs = .ok (fc.fragments, st) ∧
      fc.margins = ⟨st.collapses, st.startMargin, st.currentMargin⟩ ∧ fc.blockSize = st.position ∧
      (o = [] → out = []) := by
  obtain ⟨⟨fs, abs1, st⟩, h1, h⟩ := bind_eq_ok.1 h
  obtain ⟨adj, h2, h⟩ := bind_eq_ok.1 h
  obtain ⟨⟨fs0, abs0⟩, h3, h1⟩ := bind_eq_ok.1 h1
  obtain ⟨⟨fs1, st1⟩, h4, h1⟩ := bind_eq_ok.1 h1
  cases h1
  cases h
  refine ⟨fs0, abs1, st, h3, h4, rfl, rfl, ?_⟩
  rintro rfl
  cases h2
  rfl

/-- contents that margins collapse through have no text -/
def SolidChildren (fc : FlowChildren) : Prop := fc.margins.collapsedThrough = true → Textless fc.fragments

theorem container_solid {E : TextEnv} {boxL : BoxLayout} (hb : BoxSolid boxL) {c : BlockContainer} (hc : noAbs c)
    (hn : c.noFloats = c)
    {cb : ContainingBlock} {rank : Nat} {coll : Bool} {fc : FlowChildren} {out : List AbsFragment}
    (h : containerLayout E boxL c cb rank [] false coll = .ok (fc, out)) : out = [] ∧ SolidChildren fc := by
  cases c with
  | blockLevelBoxes bs =>
    obtain ⟨fs, o, st, h1, h2, h3, -, h4⟩ := children_ok h
    simp only [BlockContainer.noFloats, BlockContainer.blockLevelBoxes.injEq] at hn
    obtain ⟨ho, hs⟩ := layoutEach_solid hb _ _ _ _ hc hn h1
    refine ⟨h4 ho, fun k => ?_⟩
    rw [h3] at k
    exact (placeAll_started _ _ _ _ hs h2).textless k
  | inlineFormattingContext st bs =>
    obtain ⟨L, new, -, h1, -, h2⟩ := ifcLayout_good E st bs cb rank (inlinesNoAbs_sound bs hc)
    have h' : ifcLayout E st bs cb rank [] = .ok (fc, out) := h
    rw [h1 []] at h'
    rw [inlines_absBoxes bs hc, List.map_eq_nil_iff] at h2
    subst h2
    cases h'
    exact ⟨rfl, fun k => by cases k⟩

theorem bfc_solid {E : TextEnv} {boxL : BoxLayout} (hb : BoxSolid boxL) {c : BlockContainer} (hc : noAbs c)
    (hn : c.noFloats = c)
    {cb : ContainingBlock} {rank : Nat} {fc : FlowChildren} {out : List AbsFragment}
    (h : bfcLayout E boxL (.mk c false) cb rank [] = .ok (fc, out)) : out = [] ∧ SolidChildren fc := by
  obtain ⟨⟨fc1, out1⟩, h1, h⟩ := bind_eq_ok.1 h
  cases h
  exact ⟨(container_solid hb hc hn h1).1, fun k => by cases k⟩

/-- an in-flow block without absolutely positioned boxes -/
theorem inFlow_ok {absL : AbsLayout} {cb : ContainingBlock} {style : Style} {kind : BlockLevelKind}
    {contents : ContainingBlock → List AbsFragment → Bool → Except Panic (FlowChildren × List AbsFragment)}
    {f : Fragment} {out : List AbsFragment} (h : layoutInFlow absL cb [] style kind contents = .ok (f, out))
    (hn : ∀ cb coll fc o, contents cb [] coll = .ok (fc, o) → o = []) :
    ∃ fc g, contents ⟨(inFlowSizes cb style kind).inlineSize, (inFlowSizes cb style kind).blockSize, style.writingMode⟩ []
        (inFlowSizes cb style kind).startCollapses = .ok (fc, []) ∧ out = [] ∧
      f = .box style g (collapseWithChildren (inFlowSizes cb style kind) fc).1 fc.fragments ∧
      g.contentRect.startCorner = ⟨(inFlowSizes cb style kind).pb.inlineStart +
          (relativeAdjustement style (inFlowSizes cb style kind).inlineSize
            (inFlowSizes cb style kind).blockSize).inline + (inFlowSizes cb style kind).margin.inlineStart,
        (inFlowSizes cb style kind).pb.blockStart +
          (relativeAdjustement style (inFlowSizes cb style kind).inlineSize
            (inFlowSizes cb style kind).blockSize).block⟩ := by
  unfold layoutInFlow at h
  simp only at h
  split at h
  · cases h
  · obtain ⟨⟨fc, o⟩, h1, h⟩ := bind_eq_ok.1 h
    obtain ⟨children, h2, h⟩ := bind_eq_ok.1 h
    rw [ite_self] at h1
    have ho := hn _ _ _ _ h1
    subst ho
    have hch : children = fc.fragments := by
      split at h2
      · cases h2
        rfl
      · cases h2
        rfl
    subst hch
    cases h
    exact ⟨fc, _, h1, by rw [ite_self], rfl, rfl⟩

/-! ## Lines in an anonymous block -/

/-- the relative offset does not depend on the height around -/
def Unbothered (st : Style) : Prop :=
  ∀ (w : Length) (h h' : LengthOrAuto), relativeAdjustement st w h = relativeAdjustement st w h'

theorem fixed_unbothered {st : Style} (h : fixedOffsets st) : Unbothered st := by
  intro w b b'
  unfold relativeAdjustement
  split
  · rfl
  · rename_i hp
    have hr : st.val .position = Position.relative := by
      cases hq : st.val .position <;> rw [hq] at hp <;> simp [Position.isRelativelyPositioned] at hp ⊢
    obtain ⟨h1, h2⟩ := h hr
    have e1 : ∀ x y : Length, (st.val .top).percentageRelativeTo x = (st.val .top).percentageRelativeTo y := by
      intro x y
      cases ht : st.val .top with
      | percentage p => exact absurd ht (h1 p)
      | _ => rfl
    have e2 : ∀ x y : Length, (st.val .bottom).percentageRelativeTo x = (st.val .bottom).percentageRelativeTo y := by
      intro x y
      cases ht : st.val .bottom with
      | percentage p => exact absurd ht (h2 p)
      | _ => rfl
    show Vec2.mk _ (relativeAdjust ((st.val .top).percentageRelativeTo (b.autoIs 0))
      ((st.val .bottom).percentageRelativeTo (b.autoIs 0))) = Vec2.mk _ (relativeAdjust
      ((st.val .top).percentageRelativeTo (b'.autoIs 0)) ((st.val .bottom).percentageRelativeTo (b'.autoIs 0)))
    rw [e1 (b.autoIs 0) (b'.autoIs 0), e2 (b.autoIs 0) (b'.autoIs 0)]
    rfl

mutual

/-- all boxes in it are `Unbothered` -/
def itemCalm : Item → Prop
  | .text .. => True
  | .box st _ _ _ is => Unbothered st ∧ itemsUnbothered is

/-- see `itemCalm` -/
def itemsUnbothered : List Item → Prop
  | [] => True
  | i :: is => itemCalm i ∧ itemsUnbothered is

end

theorem itemsUnbothered_append {a b : List Item} : itemsUnbothered (a ++ b) ↔ itemsUnbothered a ∧ itemsUnbothered b := by
  induction a with
  | nil => simp [itemsUnbothered]
  | cons i a ih => simp [itemsUnbothered, ih, and_assoc]

theorem joinLines_unbothered : ∀ A B : List Line, (∀ l ∈ A, itemsUnbothered l) →
    (∀ l ∈ B, itemsUnbothered l) → ∀ l ∈ joinLines A B, itemsUnbothered l
  | [], B, _, hB => by simpa [joinLines] using hB
  | [a], [], hA, _ => by simpa [joinLines] using hA
  | [a], b :: B, hA, hB => by
    intro l hl
    simp only [joinLines, List.mem_cons] at hl
    rcases hl with rfl | hl
    · exact itemsUnbothered_append.2 ⟨hA a (by simp), hB b (by simp)⟩
    · exact hB l (by simp [hl])
  | a :: a' :: A, B, hA, hB => by
    intro l hl
    simp only [joinLines, List.mem_cons] at hl
    rcases hl with rfl | hl
    · exact hA _ (by simp)
    · exact joinLines_unbothered (a' :: A) B (fun l hl => hA l (by simp [List.mem_cons.1 hl])) hB l hl

theorem decorate_unbothered {st : Style} (h : Unbothered st) :
    ∀ (L : List Line) (o s e : Bool), (∀ l ∈ L, itemsUnbothered l) →
    ∀ l ∈ decorate st o s e L, itemsUnbothered l
  | [], _, _, _, _ => by simp [decorate]
  | [l], _, _, _, hL => by
    intro x hx
    simp only [decorate, List.mem_singleton] at hx
    subst hx
    exact ⟨⟨h, hL l (by simp)⟩, trivial⟩
  | l :: l' :: L, o, s, e, hL => by
    intro x hx
    simp only [decorate, List.mem_cons] at hx
    rcases hx with rfl | hx
    · exact ⟨⟨h, hL l (by simp)⟩, trivial⟩
    · exact decorate_unbothered h (l' :: L) false false e (fun l hl => hL l (by simp [List.mem_cons.1 hl]))
        x hx

mutual

theorem linesOf_unbothered (E : TextEnv) (w : ℚ) : ∀ (b : InlineLevelBox) (x : ℚ), inlineFixed b →
    ∀ l ∈ b.linesOf E w x, itemsUnbothered l
  | .textRun st t font, x, _ => by
    intro l hl
    simp only [InlineLevelBox.linesOf] at hl
    obtain ⟨q, -, rfl⟩ := List.mem_map.1 hl
    exact ⟨trivial, trivial⟩
  | .inlineBox st first last children, x, h => by
    simp only [inlineFixed] at h
    simp only [InlineLevelBox.linesOf]
    exact decorate_unbothered (fixed_unbothered h.1) _ _ _ _ (inlineLines_unbothered E w children _ h.2)
  | .outOfFlowAbsolutelyPositionedBox _ _, _, _ => by simp [InlineLevelBox.linesOf, itemsUnbothered]
  | .outOfFlowFloatBox _ _, _, _ => by simp [InlineLevelBox.linesOf, itemsUnbothered]

theorem inlineLines_unbothered (E : TextEnv) (w : ℚ) : ∀ (bs : List InlineLevelBox) (x : ℚ), inlinesFixed bs →
    ∀ l ∈ inlineLines E w bs x, itemsUnbothered l
  | [], _, _ => by simp [inlineLines, itemsUnbothered]
  | b :: bs, x, h => by
    simp only [inlinesFixed] at h
    rw [inlineLines]
    exact joinLines_unbothered _ _ (linesOf_unbothered E w b x h.1) (inlineLines_unbothered E w bs _ h.2)

end

mutual

theorem itemPlace_unbothered (E : TextEnv) (w : Length) (h h' : LengthOrAuto) (mode : Mode) : ∀ (i : Item), itemCalm i →
    ∀ (f : Font) (o x : ℚ), i.place E ⟨w, h, mode⟩ f o x = i.place E ⟨w, h', mode⟩ f o x
  | .text .., _, _, _, _ => by simp only [Item.place]
  | .box st onFirst s e is, hi, f, o, x => by
    simp only [itemCalm] at hi
    simp only [Item.place, hi.1 w h h', place_unbothered E w h h' mode is hi.2]

theorem place_unbothered (E : TextEnv) (w : Length) (h h' : LengthOrAuto) (mode : Mode) : ∀ (is : List Item),
    itemsUnbothered is → ∀ (f : Font) (o x : ℚ), place E ⟨w, h, mode⟩ is f o x = place E ⟨w, h', mode⟩ is f o x
  | [], _, _, _, _ => by simp only [place]
  | i :: is, hi, f, o, x => by
    simp only [itemsUnbothered] at hi
    simp only [place, itemPlace_unbothered E w h h' mode i hi.1, place_unbothered E w h h' mode is hi.2]

end

theorem placeLines_unbothered (E : TextEnv) (w : Length) (h h' : LengthOrAuto) (mode : Mode) (a : TextAlign) (root : Font) :
    ∀ (L : List Line) (y : ℚ), (∀ l ∈ L, itemsUnbothered l) →
    placeLines E ⟨w, h, mode⟩ a root y L = placeLines E ⟨w, h', mode⟩ a root y L
  | [], _, _ => rfl
  | l :: L, y, hl => by
    simp only [placeLines, place_unbothered E w h h' mode l (hl l (by simp)),
      placeLines_unbothered E w h h' mode a root L _ (fun x hx => hl x (by simp [hx]))]

theorem ifc_unbothered (E : TextEnv) (st : Style) (bs : List InlineLevelBox) (hs : inlineSound bs) (hf : inlinesFixed bs)
    (w : Length) (h h' : LengthOrAuto) (mode : Mode) (rank rank' : Nat) {fc : FlowChildren} {out : List AbsFragment}
    (e : ifcLayout E st bs ⟨w, h, mode⟩ rank [] = .ok (fc, out)) :
    ∃ out', ifcLayout E st bs ⟨w, h', mode⟩ rank' [] = .ok (fc, out') := by
  obtain ⟨L, new, -, ⟨-, rfl, -⟩, e1⟩ := ifcLayout_lines E st bs ⟨w, h, mode⟩ rank [] (inlineSound_absOk _ hs)
  obtain ⟨L', new', -, ⟨-, rfl, -⟩, e2⟩ := ifcLayout_lines E st bs ⟨w, h', mode⟩ rank' [] (inlineSound_absOk _ hs)
  rw [e1] at e
  injection e with e
  injection e with e _
  have p := placeLines_unbothered E w h h' mode (st.val .textAlign) (E.font st) (inlineLines E w bs 0) 0
    (inlineLines_unbothered E w bs 0 hf)
  refine ⟨[] ++ new', ?_⟩
  rw [e2, ← e]
  simp only [p]

end Sinab.Append
