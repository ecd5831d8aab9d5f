import Verif.Spec.Decor
import Verif.Lemmas.ConstructBoxes

/-! The boxes of a box tree are those of the elements. -/

namespace Sinab

mutual

/-- boxes of elements that are drawn -/
def BlockContainer.boxed : BlockContainer → List Boxed
  | .blockLevelBoxes bs => blockBoxed bs
  | .inlineFormattingContext _ bs => inlineBoxed bs

/-- see `BlockContainer.boxed` -/
def Bfc.boxed : Bfc → List Boxed
  | .mk c _ => c.boxed

/-- see `BlockContainer.boxed` -/
def BlockLevelBox.boxed : BlockLevelBox → List Boxed
  | .sameFormattingContextBlock st c =>
    match st.val .display with
    | .generatingBox .block _ => (st, .block) :: c.boxed
    | _ => c.boxed
  | .outOfFlowAbsolutelyPositionedBox st c => (st, .block) :: c.boxed
  | .outOfFlowFloatBox _ _ => []
  | .independent st c => (st, .block) :: c.boxed

/-- see `BlockContainer.boxed` -/
def blockBoxed : List BlockLevelBox → List Boxed
  | [] => []
  | b :: bs => b.boxed ++ blockBoxed bs

/-- see `BlockContainer.boxed` -/
def InlineLevelBox.boxed : InlineLevelBox → List Boxed
  | .inlineBox st _ _ ks => (st, .inline) :: inlineBoxed ks
  | .textRun .. => []
  | .outOfFlowAbsolutelyPositionedBox st c => (st, .block) :: c.boxed
  | .outOfFlowFloatBox _ _ => []

/-- see `BlockContainer.boxed` -/
def inlineBoxed : List InlineLevelBox → List Boxed
  | [] => []
  | b :: bs => b.boxed ++ inlineBoxed bs

end

mutual

/-- Blocks that belong to no element have no decoration, and inline boxes are not split. -/
def BlockContainer.tidy : BlockContainer → Prop
  | .blockLevelBoxes bs => blockTidy bs
  | .inlineFormattingContext _ bs => inlineTidy bs

/-- see `BlockContainer.tidy` -/
def Bfc.tidy : Bfc → Prop
  | .mk c _ => c.tidy

/-- see `BlockContainer.tidy` -/
def BlockLevelBox.tidy : BlockLevelBox → Prop
  | .sameFormattingContextBlock st c =>
    ((∃ i, st.val .display = .generatingBox .block i) ∨
      ∃ p, st = Style.anonymousInheritingFrom p) ∧ c.tidy
  | .outOfFlowAbsolutelyPositionedBox _ c => c.tidy
  | .outOfFlowFloatBox _ _ => True
  | .independent _ c => c.tidy

/-- see `BlockContainer.tidy` -/
def blockTidy : List BlockLevelBox → Prop
  | [] => True
  | b :: bs => b.tidy ∧ blockTidy bs

/-- see `BlockContainer.tidy` -/
def InlineLevelBox.tidy : InlineLevelBox → Prop
  | .inlineBox _ first last ks => first = true ∧ last = true ∧ inlineTidy ks
  | .textRun .. => True
  | .outOfFlowAbsolutelyPositionedBox _ c => c.tidy
  | .outOfFlowFloatBox _ _ => True

/-- see `BlockContainer.tidy` -/
def inlineTidy : List InlineLevelBox → Prop
  | [] => True
  | b :: bs => b.tidy ∧ inlineTidy bs

end

theorem inlineBoxed_append (a b : List InlineLevelBox) :
    inlineBoxed (a ++ b) = inlineBoxed a ++ inlineBoxed b := by
  induction a with
  | nil => simp [inlineBoxed]
  | cons x a ih => simp [inlineBoxed, ih]

theorem blockBoxed_append (a b : List BlockLevelBox) :
    blockBoxed (a ++ b) = blockBoxed a ++ blockBoxed b := by
  induction a with
  | nil => simp [blockBoxed]
  | cons x a ih => simp [blockBoxed, ih]

theorem inlineTidy_append {a b : List InlineLevelBox} :
    inlineTidy (a ++ b) ↔ inlineTidy a ∧ inlineTidy b := by
  induction a with
  | nil => simp [inlineTidy]
  | cons x a ih => simp [inlineTidy, ih, and_assoc]

theorem blockTidy_append {a b : List BlockLevelBox} :
    blockTidy (a ++ b) ↔ blockTidy a ∧ blockTidy b := by
  induction a with
  | nil => simp [blockTidy]
  | cons x a ih => simp [blockTidy, ih, and_assoc]

theorem textInto_boxed (C : BoxContext) (st : Style) (t : Text) (l : List InlineLevelBox) :
    inlineBoxed (textInto C st t l) = inlineBoxed l := by
  obtain ⟨b, hb⟩ := textInto_any C st t l
  rw [hb]
  generalize (if st.keepsSpace then t else squeeze b t) = t'
  unfold addRun
  split
  · rfl
  · rcases appendText_cases C st t' l with ⟨s, old, f, pre, rfl, h⟩ | ⟨_, h⟩ <;>
      rw [h] <;> simp [inlineBoxed_append, inlineBoxed, InlineLevelBox.boxed]

theorem textInto_tidy {C : BoxContext} {st : Style} {t : Text} {l : List InlineLevelBox}
    (hl : inlineTidy l) : inlineTidy (textInto C st t l) := by
  obtain ⟨b, hb⟩ := textInto_any C st t l
  rw [hb]
  generalize (if st.keepsSpace then t else squeeze b t) = t'
  unfold addRun
  split
  · exact hl
  · rcases appendText_cases C st t' l with ⟨s, old, f, pre, rfl, h⟩ | ⟨_, h⟩ <;>
      rw [h] <;> simp_all [inlineTidy_append, inlineTidy, InlineLevelBox.tidy]

/-- the boxes of a builder -/
def Flow.boxed (f : Flow) : List Boxed := blockBoxed (f.blocks.map (·.box)) ++ inlineBoxed f.inl

/-- see `BlockContainer.tidy` -/
structure Flow.Tidy (f : Flow) : Prop where
  blocks : blockTidy (f.blocks.map (·.box))
  inl : inlineTidy f.inl

theorem Flow.flush_boxed (cst : Style) (f : Flow) : (f.flush cst).boxed = f.boxed := by
  unfold Flow.flush
  split
  · rfl
  · simp [Flow.boxed, blockBoxed_append, blockBoxed, Flow.anon, BlockLevelBox.boxed,
      anonymous_display, BlockContainer.boxed, inlineBoxed]

theorem Flow.Tidy.flush {f : Flow} (h : f.Tidy) (cst : Style) : (f.flush cst).Tidy := by
  unfold Flow.flush
  split
  · exact h
  · refine ⟨?_, trivial⟩
    simp only [List.map_append, List.map_cons, List.map_nil, blockTidy_append]
    exact ⟨h.blocks, ⟨.inr ⟨_, rfl⟩, h.inl⟩, trivial⟩

theorem Flow.container_boxed (cst : Style) (f : Flow) : (f.container cst).1.boxed = f.boxed := by
  unfold Flow.container
  split
  · rename_i h
    simp only [Bool.and_eq_true, List.isEmpty_iff] at h
    simp [BlockContainer.boxed, Flow.boxed, h.2, blockBoxed]
  · rw [← Flow.flush_boxed cst f]
    simp [BlockContainer.boxed, Flow.boxed, Flow.flush_inl, inlineBoxed]

theorem Flow.Tidy.container {f : Flow} (h : f.Tidy) (cst : Style) : (f.container cst).1.tidy := by
  unfold Flow.container
  split
  · exact h.inl
  · exact (h.flush cst).blocks

theorem Flow.pushBlk_boxed {f : Flow} (h : f.inl = []) (b : Blk) :
    (f.pushBlk b).boxed = f.boxed ++ b.box.boxed := by
  simp [Flow.boxed, Flow.pushBlk, blockBoxed_append, blockBoxed, h, inlineBoxed]

theorem Flow.Tidy.pushBlk {f : Flow} (h : f.Tidy) {b : Blk} (hb : b.box.tidy) :
    (f.pushBlk b).Tidy := by
  refine ⟨?_, h.inl⟩
  simp only [Flow.pushBlk, List.map_append, List.map_cons, List.map_nil, blockTidy_append]
  exact ⟨h.blocks, hb, trivial⟩

theorem Flow.Tidy.push {f : Flow} (h : f.Tidy) {b : InlineLevelBox} (hb : b.tidy) : (f.push b).Tidy :=
  ⟨h.blocks, inlineTidy_append.2 ⟨h.inl, hb, trivial⟩⟩

/-- an entry adds its boxes -/
structure BoxStep (inl : Bool) (f g : Flow) (new : List Boxed) : Prop where
  boxed : g.boxed = f.boxed ++ new
  tidy : f.Tidy → g.Tidy
  blocks : inl = true → g.blocks = f.blocks

mutual

theorem Styled.put_boxed (C : BoxContext) (cst : Style) (inl : Bool) : ∀ (c : Styled) (f : Flow),
    c.good inl = true → c.faithful → BoxStep inl f (c.put C cst inl f) c.boxed
  | .other, f, _, _ => ⟨by simp [Styled.put, Styled.boxed], id, fun _ => rfl⟩
  | .hidden id, f, _, _ => ⟨by simp [Styled.put, Styled.boxed, Flow.boxed, Flow.claim, Flow.note],
      fun h => ⟨h.1, h.2⟩, fun _ => rfl⟩
  | .text st t, f, _, _ => ⟨by simp [Styled.put, Styled.boxed, Flow.boxed, textInto_boxed],
      fun h => ⟨h.1, textInto_tidy h.2⟩, fun _ => rfl⟩
  | .contents id ks, f, hg, hf => by
    simp only [Styled.good, Bool.and_eq_true] at hg
    have h := putAll_boxed C cst inl ks ((f.note id ⟨some .displayContents, false⟩).claim id) hg.2 hf
    exact ⟨h.1, fun h' => h.2 ⟨h'.1, h'.2⟩, h.3⟩
  | .elem id st .inline .flowRoot ks, f, hg, _ => by simp [Styled.good] at hg
  | .elem id st .inline .flow ks, f, hg, hf => by
    simp only [Styled.good, Bool.and_eq_true] at hg
    obtain ⟨h1, h3, h2⟩ := putAll_boxed C cst true ks
      ((({ f with inl := [] } : Flow).note id ⟨none, true⟩).claim id) hg.2 hf.2
    have h2 := h2 rfl
    simp only [Styled.put]
    generalize putAll C cst true ks
      ((({ f with inl := [] } : Flow).note id ⟨none, true⟩).claim id) = r at h1 h2 h3
    refine ⟨?_, fun h => ⟨?_, ?_⟩, fun _ => h2⟩
    · simp only [Flow.note, Flow.claim, Flow.boxed, h2, inlineBoxed, List.append_nil,
        List.append_cancel_left_eq] at h1 h2 ⊢
      simp [inlineBoxed_append, inlineBoxed, InlineLevelBox.boxed, Styled.boxed, h1]
    · exact (h3 ⟨h.1, trivial⟩).1
    · exact inlineTidy_append.2 ⟨h.2, ⟨rfl, rfl, (h3 ⟨h.1, trivial⟩).2⟩, trivial⟩
  | .elem id st .block ins ks, f, hg, hf => by
    simp only [Styled.good, Bool.and_eq_true] at hg
    obtain ⟨hg1, hg2, hg3⟩ := hg
    obtain ⟨hd, hks⟩ := hf
    have hp := putAll_boxed C st false ks Flow.empty hg3 hks
    have hr : ((putAll C st false ks Flow.empty).container st).1.boxed = boxedAll ks := by
      rw [Flow.container_boxed, hp.1]
      rfl
    have ht : ((putAll C st false ks Flow.empty).container st).1.tidy :=
      (hp.2 ⟨trivial, trivial⟩).container st
    have h0 : ((f.note id ⟨none, true⟩).claim id).boxed = f.boxed := rfl
    have h1 : f.Tidy → ((f.note id ⟨none, true⟩).claim id).Tidy := fun h => ⟨h.1, h.2⟩
    simp only [Styled.put]
    split
    · rename_i habs
      have e : (Styled.elem id st .block ins ks).boxed = (st, .block) :: boxedAll ks := by
        rw [Styled.boxed, if_neg (by simp [habs])]
      rw [e]
      split
      · refine ⟨?_, fun h => ⟨h.1, inlineTidy_append.2 ⟨h.2, ht, trivial⟩⟩, fun _ => rfl⟩
        simp [Flow.boxed, Flow.note, Flow.absorb, Flow.push, Flow.claim, inlineBoxed_append,
          inlineBoxed, InlineLevelBox.boxed, Bfc.boxed, hr]
      · rename_i hi
        obtain ⟨i1, i2⟩ := isEmpty_false_of_or hi
        refine ⟨?_, fun h => by apply Flow.Tidy.pushBlk; exacts [⟨h.1, h.2⟩, ht], fun h => by rw [i1] at h; simp at h⟩
        rw [Flow.pushBlk_boxed i2, h0]
        simp [BlockLevelBox.boxed, Bfc.boxed, hr]
    · rename_i habs
      split
      · rename_i hflo
        have e : (Styled.elem id st .block ins ks).boxed = [] := by
          rw [Styled.boxed, if_pos (by simp [habs, hflo])]
        rw [e]
        split
        · refine ⟨?_, fun h => ⟨h.1, inlineTidy_append.2 ⟨h.2, trivial, trivial⟩⟩, fun _ => rfl⟩
          simp [Flow.boxed, Flow.note, Flow.absorb, Flow.push, Flow.claim, inlineBoxed_append,
            inlineBoxed, InlineLevelBox.boxed]
        · rename_i hi
          obtain ⟨i1, i2⟩ := isEmpty_false_of_or hi
          refine ⟨?_, fun h => by apply Flow.Tidy.pushBlk; exacts [⟨h.1, h.2⟩, trivial],
            fun h => by rw [i1] at h; simp at h⟩
          rw [Flow.pushBlk_boxed (f := { (f.note id ⟨none, true⟩).claim id with floats := true }) i2]
          rw [show Flow.boxed { (f.note id ⟨none, true⟩).claim id with floats := true } = f.boxed
            from rfl]
          simp [BlockLevelBox.boxed]
      · rename_i hflo
        have e : (Styled.elem id st .block ins ks).boxed = (st, .block) :: boxedAll ks := by
          rw [Styled.boxed, if_neg (by simp [hflo])]
        rw [e]
        have hinl : inl = false := by
          simpa [Style.outOfFlow, habs, hflo] using hg1
        split
        · refine ⟨?_, fun h => by
            apply Flow.Tidy.pushBlk
            exacts [(h1 h).flush cst, ⟨.inl ⟨_, hd⟩, ht⟩],
            fun h => by rw [hinl] at h; simp at h⟩
          rw [Flow.pushBlk_boxed (Flow.flush_inl _ _), Flow.flush_boxed, h0]
          simp [BlockLevelBox.boxed, hr, hd]
        · refine ⟨?_, fun h => by
            apply Flow.Tidy.pushBlk
            exacts [(h1 h).flush cst, ht],
            fun h => by rw [hinl] at h; simp at h⟩
          rw [Flow.pushBlk_boxed (Flow.flush_inl _ _), Flow.flush_boxed, h0]
          simp [BlockLevelBox.boxed, Bfc.boxed, hr]

theorem putAll_boxed (C : BoxContext) (cst : Style) (inl : Bool) : ∀ (cs : List Styled) (f : Flow),
    goodAll inl cs = true → faithfulAll cs → BoxStep inl f (putAll C cst inl cs f) (boxedAll cs)
  | [], f, _, _ => ⟨by simp [putAll, boxedAll], id, fun _ => rfl⟩
  | c :: cs, f, hg, hf => by
    simp only [goodAll, Bool.and_eq_true] at hg
    obtain ⟨a1, a2, a3⟩ := Styled.put_boxed C cst inl c f hg.1 hf.1
    obtain ⟨b1, b2, b3⟩ := putAll_boxed C cst inl cs (c.put C cst inl f) hg.2 hf.2
    refine ⟨?_, fun h => b2 (a2 h), fun h => ?_⟩
    · rw [putAll, b1, a1, boxedAll, List.append_assoc]
    · rw [putAll, b3 h, a3 h]

end

theorem containerOf_boxed (C : BoxContext) (st : Style) {cs : List Styled}
    (hg : goodContent cs = true) (hf : faithfulAll cs) :
    (containerOf C st cs).1.boxed = boxedAll cs ∧ (containerOf C st cs).1.tidy := by
  simp only [goodContent, Bool.and_eq_true] at hg
  have hp := putAll_boxed C st false cs Flow.empty hg.2 hf
  unfold containerOf
  refine ⟨?_, (hp.2 ⟨trivial, trivial⟩).container st⟩
  rw [Flow.container_boxed, hp.1]
  rfl

end Sinab
