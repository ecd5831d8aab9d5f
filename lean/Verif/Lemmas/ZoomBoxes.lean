import Verif.Lemmas.Zoom
import Verif.Lemmas.ConstructBoxes

/-! Box construction commutes with magnification (C81). -/

namespace Sinab

namespace Zoom

variable (z : Zoom)

theorem inlines_map : ∀ bs : List InlineLevelBox, z.inlines bs = bs.map z.inline
  | [] => rfl
  | b :: bs => by rw [inlines, inlines_map bs, List.map_cons]

theorem blocks_map : ∀ bs : List BlockLevelBox, z.blocks bs = bs.map z.block
  | [] => rfl
  | b :: bs => by rw [blocks, blocks_map bs, List.map_cons]

theorem anonymous_z (s : Style) :
    Style.anonymousInheritingFrom (some (z.style s)) = z.style (Style.anonymousInheritingFrom (some s)) := by
  have h : ∀ p, (Style.anonymousInheritingFrom (some (z.style s))).val p =
      (z.style (Style.anonymousInheritingFrom (some s))).val p := by
    intro p
    cases p <;> first
      | rfl
      | exact (z.paint_initial .backgroundColor).symm
      | exact (z.paint_initial .borderTopColor).symm
      | exact (z.paint_initial .borderRightColor).symm
      | exact (z.paint_initial .borderBottomColor).symm
      | exact (z.paint_initial .borderLeftColor).symm
      | exact (z.paint_initial .borderTopStyle).symm
      | exact (z.paint_initial .borderRightStyle).symm
      | exact (z.paint_initial .borderBottomStyle).symm
      | exact (z.paint_initial .borderLeftStyle).symm
      | (show LengthOrPercentageOrAuto.length 0 = .length (z.k * 0)
         rw [mul_zero])
      | (show LengthOrPercentage.length 0 = .length (z.k * 0)
         rw [mul_zero])
  have h2 : (Style.anonymousInheritingFrom (some (z.style s))).specifiedDisplay =
      (z.style (Style.anonymousInheritingFrom (some s))).specifiedDisplay := rfl
  revert h h2
  generalize Style.anonymousInheritingFrom (some (z.style s)) = a
  generalize z.style (Style.anonymousInheritingFrom (some s)) = b
  intro h h2
  obtain ⟨va, da⟩ := a
  obtain ⟨vb, db⟩ := b
  obtain rfl : va = vb := funext h
  obtain rfl : da = db := h2
  rfl

theorem leadingLoop_z : ∀ (n : Nat) (it : List InlineLevelBox) (stack : List (List InlineLevelBox)),
    leadingLoop n (z.inlines it) (stack.map z.inlines) = leadingLoop n it stack
  | 0, _, _ => rfl
  | n + 1, it, stack => by
    cases it with
    | nil =>
      cases stack with
      | nil => rfl
      | cons a as => exact leadingLoop_z n a as
    | cons b bs =>
      cases b with
      | textRun st t f => rfl
      | outOfFlowAbsolutelyPositionedBox st c => exact leadingLoop_z n bs stack
      | outOfFlowFloatBox st c => exact leadingLoop_z n bs stack
      | inlineBox st a l cs =>
        have := leadingLoop_z n cs.reverse (bs :: stack)
        simp only [leadingLoop, inlines, inline]
        rw [← this, z.inlines_map cs, z.inlines_map cs.reverse, List.map_reverse]
        rfl

theorem inlines_append (a b : List InlineLevelBox) : z.inlines (a ++ b) = z.inlines a ++ z.inlines b := by
  simp only [inlines_map, List.map_append]

theorem inlines_isEmpty (a : List InlineLevelBox) : (z.inlines a).isEmpty = a.isEmpty := by
  cases a <;> rfl

/-- The fonts of one context are those of another, magnified. -/
def SameFonts (C C' : BoxContext) : Prop := ∀ s, C'.fontOf (z.style s) = z.font (C.fontOf s)

variable {z} {C C' : BoxContext}

theorem appendText_z (h : z.SameFonts C C') (st : Style) (t : Text) (bs : List InlineLevelBox) :
    appendText C' (z.style st) t (z.inlines bs) = z.inlines (appendText C st t bs) := by
  unfold appendText
  rw [inlines_map, List.getLast?_map]
  cases hl : bs.getLast? with
  | none =>
    show _ = z.inlines (bs ++ _)
    rw [inlines_append, inlines_map, h]
    rfl
  | some b =>
    cases b with
    | textRun s old f =>
      show List.dropLast _ ++ _ = z.inlines (bs.dropLast ++ _)
      rw [inlines_append, inlines_map, List.map_dropLast]
      rfl
    | inlineBox s a l cs =>
      show _ = z.inlines (bs ++ _)
      rw [inlines_append, inlines_map, h]
      rfl
    | outOfFlowAbsolutelyPositionedBox s c =>
      show _ = z.inlines (bs ++ _)
      rw [inlines_append, inlines_map, h]
      rfl
    | outOfFlowFloatBox s c =>
      show _ = z.inlines (bs ++ _)
      rw [inlines_append, inlines_map, h]
      rfl

theorem leading_z (st : Style) (bs : List InlineLevelBox) (t : Text) :
    (Builder.mk (z.style st) [] (z.inlines bs) [] false).handleLeadingWhitespace t =
      (Builder.mk st [] bs [] false).handleLeadingWhitespace t := by
  cases t with
  | nil => rfl
  | cons c t =>
    have h1 := leadingLoop_z z (inlineSteps bs + 1) bs.reverse []
    have h2 : (z.inlines bs).reverse = z.inlines bs.reverse := by rw [inlines_map, inlines_map, List.map_reverse]
    simp only [Builder.handleLeadingWhitespace, Builder.current, inlineSteps_z, h2]
    rw [← h1]
    rfl

theorem textInto_z (h : z.SameFonts C C') (st : Style) (t : Text) (bs : List InlineLevelBox) :
    textInto C' (z.style st) t (z.inlines bs) = z.inlines (textInto C st t bs) := by
  have hw : (z.style st).val .whiteSpace = st.val .whiteSpace := rfl
  have hp : (Builder.handleTextPreserve C' ⟨z.style st, [], z.inlines bs, [], false⟩ t (z.style st)).inlines =
      z.inlines (Builder.handleTextPreserve C ⟨st, [], bs, [], false⟩ t st).inlines := by
    unfold Builder.handleTextPreserve
    split
    · exact appendText_z h st t bs
    · rfl
  have hc : (Builder.handleTextCollapse C' ⟨z.style st, [], z.inlines bs, [], false⟩ t (z.style st)).inlines =
      z.inlines (Builder.handleTextCollapse C ⟨st, [], bs, [], false⟩ t st).inlines := by
    unfold Builder.handleTextCollapse
    rw [leading_z]
    obtain ⟨a, i⟩ := (Builder.mk st [] bs [] false).handleLeadingWhitespace t
    simp only
    split
    · exact appendText_z h st _ bs
    · rfl
  unfold textInto
  rw [hw]
  cases st.val .whiteSpace <;> first | exact hc | exact hp

variable (z) in
/-- a builder whose boxes are those of another, magnified -/
structure FlowOk (f g : Flow) : Prop where
  blocks : g.blocks.map (fun b => (b.box, b.floats)) = f.blocks.map (fun b => (z.block b.box, b.floats))
  inl : g.inl = z.inlines f.inl
  floats : g.floats = f.floats

theorem FlowOk.empty : z.FlowOk Flow.empty Flow.empty := ⟨rfl, rfl, rfl⟩

theorem FlowOk.flush {f g : Flow} (h : z.FlowOk f g) (cst : Style) : z.FlowOk (f.flush cst) (g.flush (z.style cst)) := by
  unfold Flow.flush
  rw [h.inl, inlines_isEmpty]
  split
  · exact ⟨h.blocks, h.inl, h.floats⟩
  · refine ⟨?_, rfl, h.floats⟩
    simp only [List.map_append, h.blocks, List.map_cons, List.map_nil, Flow.anon, anonymous_z]
    rfl

theorem FlowOk.container {f g : Flow} (h : z.FlowOk f g) (cst : Style) :
    (g.container (z.style cst)).1 = z.container (f.container cst).1 ∧
    (g.container (z.style cst)).2.1 = (f.container cst).2.1 := by
  have hlen : g.blocks.isEmpty = f.blocks.isEmpty := by
    have := congrArg List.length h.blocks
    simp only [List.length_map] at this
    exact isEmpty_of_length this
  unfold Flow.container
  rw [h.inl, hlen, inlines_isEmpty]
  split
  · exact ⟨rfl, h.floats⟩
  · have hf := h.flush cst
    refine ⟨?_, ?_⟩
    · have := congrArg (List.map Prod.fst) hf.blocks
      simp only [List.map_map, Function.comp_def] at this
      simp only [this, Zoom.container, blocks_map, List.map_map, Function.comp_def]
    · simp only [hf.floats]
      congr 1
      have := congrArg (List.map Prod.snd) hf.blocks
      simp only [List.map_map, Function.comp_def] at this
      have h2 := congrArg (fun l => l.any id) this
      simpa [List.any_map] using h2

theorem FlowOk.pushBlk {f g : Flow} (h : z.FlowOk f g) {a b : Blk} (h1 : b.box = z.block a.box)
    (h2 : b.floats = a.floats) : z.FlowOk (f.pushBlk a) (g.pushBlk b) :=
  ⟨by simp [Flow.pushBlk, h.blocks, h1, h2], h.inl, h.floats⟩

mutual

theorem put_z (hC : z.SameFonts C C') (cst : Style) (inl : Bool) : ∀ (c : Styled) (f g : Flow),
    z.FlowOk f g → z.FlowOk (c.put C cst inl f) ((z.styled c).put C' (z.style cst) inl g)
  | .other, f, g, h => h
  | .hidden id, f, g, h => ⟨h.1, h.2, h.3⟩
  | .text st t, f, g, h => by
    refine ⟨h.1, ?_, h.3⟩
    simp only [Styled.put, styled, h.inl]
    exact textInto_z hC st t _
  | .contents id ks, f, g, h => putAll_z hC cst inl ks _ _ ⟨h.1, h.2, h.3⟩
  | .elem id st .inline ins ks, f, g, h => by
    have hr := putAll_z hC cst true ks
      ((({ f with inl := [] } : Flow).note id ⟨none, true⟩).claim id)
      ((({ g with inl := [] } : Flow).note id ⟨none, true⟩).claim id) ⟨h.1, rfl, h.3⟩
    simp only [Styled.put, styled]
    refine ⟨hr.1, ?_, hr.3⟩
    have := hr.inl
    simp only [Flow.note] at this ⊢
    rw [h.inl, this, inlines_append]
    rfl
  | .elem id st .block ins ks, f, g, h => by
    obtain ⟨c1, c2⟩ := (putAll_z hC st false ks Flow.empty Flow.empty FlowOk.empty).container st
    have h0 : z.FlowOk ((f.note id ⟨none, true⟩).claim id) ((g.note id ⟨none, true⟩).claim id) :=
      ⟨h.1, h.2, h.3⟩
    have hi : ((g.note id ⟨none, true⟩).claim id).inl.isEmpty = ((f.note id ⟨none, true⟩).claim id).inl.isEmpty := by
      rw [h0.inl, inlines_isEmpty]
    have hp : (z.style st).val .position = st.val .position := rfl
    have hf : (z.style st).val .float = st.val .float := rfl
    simp only [Styled.put, styled, c1, c2, hi, hp, hf]
    split
    · split
      · exact ⟨h.1, by simp only [Flow.push, Flow.absorb, Flow.note, Flow.claim, h.inl, inlines_append]; rfl, h.3⟩
      · exact h0.pushBlk rfl rfl
    · split
      · split
        · exact ⟨h.1, by simp only [Flow.push, Flow.absorb, Flow.note, Flow.claim, h.inl, inlines_append]; rfl, rfl⟩
        · refine ⟨?_, h.2, rfl⟩
          simp only [Flow.pushBlk, List.map_append, h0.blocks]
          rfl
      · cases ins
        · exact (h0.flush cst).pushBlk rfl rfl
        · exact (h0.flush cst).pushBlk rfl rfl

theorem putAll_z (hC : z.SameFonts C C') (cst : Style) (inl : Bool) : ∀ (cs : List Styled) (f g : Flow),
    z.FlowOk f g → z.FlowOk (putAll C cst inl cs f) (putAll C' (z.style cst) inl (z.styledAll cs) g)
  | [], f, g, h => h
  | c :: cs, _, _, h => putAll_z hC cst inl cs _ _ (put_z hC cst inl c _ _ h)

end

theorem containerOf_z (hC : z.SameFonts C C') (st : Style) (cs : List Styled) :
    (containerOf C' (z.style st) (z.styledAll cs)).1 = z.container (containerOf C st cs).1 ∧
    (containerOf C' (z.style st) (z.styledAll cs)).2.1 = (containerOf C st cs).2.1 :=
  (putAll_z hC st false cs Flow.empty Flow.empty FlowOk.empty).container st

end Zoom

end Sinab
