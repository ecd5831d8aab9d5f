import Verif.Lemmas.AppendBlocks
import Verif.Lemmas.ConstructBoxes

/-! Boxes of content to which more is added at the end. -/

namespace Sinab.Append

/-- texts can be joined anywhere -/
def anywhere : Font → Text → Text → Prop := fun _ _ _ => True

/-! ## Text -/

theorem squeeze_append : ∀ (t t' : Text) (b : Bool), ∃ b', squeeze b (t ++ t') = squeeze b t ++ squeeze b' t'
  | [], t', b => ⟨b, by simp [squeeze]⟩
  | c :: t, t', b => by
    simp only [List.cons_append, squeeze]
    split
    · split
      · exact squeeze_append t t' true
      · obtain ⟨b', e⟩ := squeeze_append t t' true
        exact ⟨b', by rw [e]; rfl⟩
    · obtain ⟨b', e⟩ := squeeze_append t t' false
      exact ⟨b', by rw [e]; rfl⟩

theorem addRun_grows (C : BoxContext) (st : Style) (t : Text) (l : List InlineLevelBox) :
    LongerInlines anywhere l (addRun C st t l) := by
  unfold addRun
  split
  · simpa using LongerInlines.more (joins := anywhere) l []
  · rcases appendText_cases C st t l with ⟨s, old, f, pre, rfl, e⟩ | ⟨-, e⟩
    · rw [e]
      exact .text _ _ _ _ _ trivial
    · rw [e]
      exact .more _ _

theorem addRun_longer (C : BoxContext) (st : Style) (t t' : Text) (l : List InlineLevelBox) :
    LongerInlines anywhere (addRun C st t l) (addRun C st (t ++ t') l) := by
  by_cases h : t = []
  · subst h
    simp only [addRun, if_true, List.nil_append]
    exact addRun_grows C st t' l
  · have h' : t ++ t' ≠ [] := by simp [h]
    unfold addRun
    rw [if_neg h, if_neg h']
    rcases appendText_cases C st t l with ⟨s, old, f, pre, rfl, e⟩ | ⟨hn, e⟩
    · rcases appendText_cases C st (t ++ t') (pre ++ [.textRun s old f]) with ⟨s2, old2, f2, pre2, e2, e3⟩ | ⟨hn, -⟩
      · obtain ⟨rfl, e4⟩ := List.append_inj' e2 rfl
        cases e4
        rw [e, e3, ← List.append_assoc]
        exact .text _ _ _ _ _ trivial
      · exact absurd (by simp) (hn s old f)
    · rcases appendText_cases C st (t ++ t') l with ⟨s2, old2, f2, pre2, rfl, e3⟩ | ⟨-, e3⟩
      · exact absurd (by simp) (hn s2 old2 f2)
      · rw [e, e3]
        exact .text _ _ _ _ _ trivial

theorem textInto_exact (C : BoxContext) (st : Style) (l : List InlineLevelBox) :
    ∃ b, ∀ t, textInto C st t l = addRun C st (if st.keepsSpace then t else squeeze b t) l := by
  refine ⟨!leadingLoop (inlineSteps l + 1) l.reverse [], fun t => ?_⟩
  unfold textInto Style.keepsSpace
  have hp : (Builder.handleTextPreserve C ⟨st, [], l, [], false⟩ t st).inlines =
      addRun C st t l := by
    unfold Builder.handleTextPreserve addRun
    cases t <;> simp [Builder.setCurrent, Builder.current]
  have hc := textInto_collapse C st t l
  split <;> simp_all

theorem textInto_grows (C : BoxContext) (st : Style) (t : Text) (l : List InlineLevelBox) :
    LongerInlines anywhere l (textInto C st t l) := by
  obtain ⟨b, e⟩ := textInto_exact C st l
  rw [e]
  exact addRun_grows _ _ _ _

theorem textInto_longer (C : BoxContext) (st : Style) (t t' : Text) (l : List InlineLevelBox) :
    LongerInlines anywhere (textInto C st t l) (textInto C st (t ++ t') l) := by
  obtain ⟨b, e⟩ := textInto_exact C st l
  rw [e, e]
  split
  · exact addRun_longer _ _ _ _ _
  · obtain ⟨b', e'⟩ := squeeze_append t t' b
    rw [e']
    exact addRun_longer _ _ _ _ _

theorem longerInlines_ne {J : Font → Text → Text → Prop} {bs bs' : List InlineLevelBox} (h : LongerInlines J bs bs') :
    bs ≠ [] → bs' ≠ [] := by
  induction h with
  | more bs m => intro h; simp [h]
  | text => simp
  | inside => simp
  | trans _ _ _ _ _ ih ih' => exact fun h => ih' (ih h)

/-! ## Inside of inline elements -/

theorem LongerInlines.rfl {J : Font → Text → Text → Prop} {bs : List InlineLevelBox} : LongerInlines J bs bs := by
  simpa using LongerInlines.more (joins := J) bs []

mutual

theorem put_inline (C : BoxContext) (cst : Style) : ∀ (c : Styled) (f : Flow), c.good true = true →
    (c.put C cst true f).blocks = f.blocks ∧ LongerInlines anywhere f.inl (c.put C cst true f).inl
  | .other, f, _ => ⟨rfl, LongerInlines.rfl⟩
  | .hidden id, f, _ => ⟨rfl, LongerInlines.rfl⟩
  | .text st t, f, _ => ⟨rfl, textInto_grows _ _ _ _⟩
  | .contents id ks, f, h => by
    simp only [Styled.good, Bool.and_eq_true] at h
    exact putAll_inline C cst ks ((f.note id ⟨some .displayContents, false⟩).claim id) h.2
  | .elem id st .inline .flowRoot ks, f, h => by simp [Styled.good] at h
  | .elem id st .inline .flow ks, f, h => by
    simp only [Styled.good, Bool.and_eq_true] at h
    have := putAll_inline C cst ks ((({ f with inl := [] } : Flow).note id ⟨none, true⟩).claim id) h.2
    exact ⟨this.1, .more _ _⟩
  | .elem id st .block ins ks, f, h => by
    simp only [Styled.good, Bool.and_eq_true, Bool.not_true, Bool.false_or] at h
    have h1 := h.1
    simp only [Style.outOfFlow, Bool.or_eq_true] at h1
    simp only [Styled.put, Bool.true_or, if_true]
    split
    · exact ⟨rfl, .more _ _⟩
    · rename_i ha
      split
      · exact ⟨rfl, .more _ _⟩
      · rename_i hb
        rcases h1 with h1 | h1
        · exact absurd h1 ha
        · exact absurd h1 hb

theorem putAll_inline (C : BoxContext) (cst : Style) : ∀ (cs : List Styled) (f : Flow), goodAll true cs = true →
    (putAll C cst true cs f).blocks = f.blocks ∧ LongerInlines anywhere f.inl (putAll C cst true cs f).inl
  | [], f, _ => ⟨rfl, LongerInlines.rfl⟩
  | c :: cs, f, h => by
    simp only [goodAll, Bool.and_eq_true] at h
    have h1 := put_inline C cst c f h.1
    have h2 := putAll_inline C cst cs (c.put C cst true f) h.2
    exact ⟨h2.1.trans h1.1, .trans _ _ _ h1.2 h2.2⟩

end

theorem goodAll_more {inl : Bool} {a b : List Styled} :
    goodAll inl (a ++ b) = true ↔ goodAll inl a = true ∧ goodAll inl b = true := by
  induction a with
  | nil => simp [goodAll]
  | cons c a ih => simp [goodAll, ih, and_assoc]

theorem then_inline (C : BoxContext) (cst : Style) (m : List Styled) (g : Flow) {x : List InlineLevelBox}
    (hm : goodAll true m = true) (h : LongerInlines anywhere x g.inl) :
    LongerInlines anywhere x (putAll C cst true m g).inl :=
  .trans _ _ _ h (putAll_inline C cst m g hm).2

theorem inline_grown (C : BoxContext) (cst : Style) {w : Bool} {cs cs' : List Styled} (h : Grown w cs cs') :
    ∀ f : Flow, goodAll true cs = true → goodAll true cs' = true →
    LongerInlines anywhere (putAll C cst true cs f).inl (putAll C cst true cs' f).inl := by
  induction h with
  | more cs m _ =>
    intro f h h'
    rw [putAll_append]
    exact (putAll_inline C cst m _ (goodAll_more.1 h').2).2
  | text _ cs m st t t' =>
    intro f h h'
    rw [putAll_append, putAll_append]
    have hm : goodAll true m = true := by
      have := (goodAll_more.1 h').2
      simp only [goodAll, Bool.and_eq_true] at this
      exact this.2
    simp only [putAll, Styled.put]
    exact then_inline C cst m _ hm (textInto_longer C st t t' _)
  | contents cs m id ks ks' _ ih =>
    intro f h h'
    rw [putAll_append, putAll_append]
    have h1 := (goodAll_more.1 h).2
    have h1' := (goodAll_more.1 h').2
    simp only [goodAll, Bool.and_eq_true, Styled.good, and_true] at h1 h1'
    simp only [putAll, Styled.put]
    exact then_inline C cst m _ h1'.2 (ih _ h1.2 h1'.1.2)
  | block cs m id st inside ks ks' hst _ ih =>
    intro f h h'
    have h1 := (goodAll_more.1 h).2
    simp [goodAll, Styled.good, hst] at h1
  | inline _ cs m id st inside ks ks' _ ih =>
    intro f h h'
    rw [putAll_append, putAll_append]
    have h1 := (goodAll_more.1 h).2
    have h1' := (goodAll_more.1 h').2
    cases inside with
    | flowRoot => simp [goodAll, Styled.good] at h1
    | flow =>
      simp only [goodAll, Bool.and_eq_true, Styled.good, and_true] at h1 h1'
      simp only [putAll, Styled.put]
      exact then_inline C cst m _ h1'.2 (.inside _ _ _ _ _ _ (ih _ h1.2 h1'.1.2))

/-! ## Blocks -/

/-- the boxes of the blocks -/
def boxesOf (f : Flow) : List BlockLevelBox := f.blocks.map (·.box)

/-- the block for inline content -/
def anonBox (cst : Style) (l : List InlineLevelBox) : BlockLevelBox :=
  .sameFormattingContextBlock (Style.anonymousInheritingFrom (some cst)) (.inlineFormattingContext cst l)

/-- see `Longer`, for a builder with blocks `B` and inline content `I` -/
inductive FlowLonger (w : Bool) (cst : Style) (B : List BlockLevelBox) (I : List InlineLevelBox) :
    List BlockLevelBox → List InlineLevelBox → Prop
  | inl (hw : w = true) (I' : List InlineLevelBox) (h : LongerInlines anywhere I I') : FlowLonger w cst B I B I'
  | wrapped (hI : I ≠ []) (I1 : List InlineLevelBox) (h : (w = true ∧ LongerInlines anywhere I I1) ∨ I1 = I)
    (more : List BlockLevelBox) (I' : List InlineLevelBox) : FlowLonger w cst B I (B ++ anonBox cst I1 :: more) I'
  | blocks (hI : I = []) (more : List BlockLevelBox) (I' : List InlineLevelBox) : FlowLonger w cst B I (B ++ more) I'
  | last (hI : I = []) (B0 : List BlockLevelBox) (b b' : BlockLevelBox) (e : B = B0 ++ [b])
    (h : LongerBlock w inlinesFixed anywhere b b') (more : List BlockLevelBox) (I' : List InlineLevelBox) :
    FlowLonger w cst B I (B0 ++ b' :: more) I'

theorem boxesOf_flush (cst : Style) (f : Flow) :
    boxesOf (f.flush cst) = boxesOf f ++ if f.inl = [] then [] else [anonBox cst f.inl] := by
  unfold Flow.flush boxesOf
  cases h : f.inl with
  | nil => simp
  | cons a l => simp [Flow.anon, anonBox]

theorem FlowLonger.inlines {w : Bool} {cst : Style} {B B' : List BlockLevelBox} {I I' I'' : List InlineLevelBox}
    (h : FlowLonger w cst B I B' I') (h' : LongerInlines anywhere I' I'') : FlowLonger w cst B I B' I'' := by
  cases h with
  | inl hw _ h => exact .inl hw _ (.trans _ _ _ h h')
  | wrapped hI I1 h more => exact .wrapped hI I1 h more _
  | blocks hI more => exact .blocks hI more _
  | last hI B0 b b' e h more => exact .last hI B0 b b' e h more _

theorem FlowLonger.flushed {w : Bool} {cst : Style} {B B' : List BlockLevelBox} {I I' : List InlineLevelBox}
    (h : FlowLonger w cst B I B' I') (more : List BlockLevelBox) (I'' : List InlineLevelBox) :
    FlowLonger w cst B I ((B' ++ if I' = [] then [] else [anonBox cst I']) ++ more) I'' := by
  cases h with
  | inl hw _ h =>
    by_cases hI : I = []
    · rw [List.append_assoc]
      exact .blocks hI _ _
    · rw [if_neg (longerInlines_ne h hI), List.append_assoc, List.singleton_append]
      exact .wrapped hI _ (.inl ⟨hw, h⟩) _ _
  | wrapped hI I1 h m =>
    rw [List.append_assoc, List.append_assoc, List.cons_append]
    exact .wrapped hI I1 h _ _
  | blocks hI m =>
    rw [List.append_assoc, List.append_assoc]
    exact .blocks hI _ _
  | last hI B0 b b' e h m =>
    rw [List.append_assoc, List.append_assoc, List.cons_append]
    exact .last hI B0 b b' e h _ _

mutual

theorem put_flow (C : BoxContext) (cst : Style) {w : Bool} {B : List BlockLevelBox} {I : List InlineLevelBox} :
    ∀ (c : Styled) (f : Flow), c.good false = true → FlowLonger w cst B I (boxesOf f) f.inl →
    FlowLonger w cst B I (boxesOf (c.put C cst false f)) (c.put C cst false f).inl
  | .other, f, _, h => h
  | .hidden id, f, _, h => h
  | .text st t, f, _, h => h.inlines (textInto_grows _ _ _ _)
  | .contents id ks, f, hg, h => by
    simp only [Styled.good, Bool.and_eq_true] at hg
    exact putAll_flow C cst ks ((f.note id ⟨some .displayContents, false⟩).claim id) hg.2 h
  | .elem id st .inline .flowRoot ks, f, hg, _ => by simp [Styled.good] at hg
  | .elem id st .inline .flow ks, f, hg, h => by
    simp only [Styled.good, Bool.and_eq_true] at hg
    have := putAll_inline C cst ks ((({ f with inl := [] } : Flow).note id ⟨none, true⟩).claim id) hg.2
    simp only [Styled.put, boxesOf, Flow.note] at this ⊢
    rw [this.1]
    exact h.inlines (.more _ _)
  | .elem id st .block ins ks, f, hg, h => by
    have push : ∀ (b : Blk) (g : Flow), g.blocks = f.blocks → g.inl = f.inl → f.inl = [] →
        FlowLonger w cst B I (boxesOf (g.pushBlk b)) (g.pushBlk b).inl := by
      intro b g e1 e2 e
      have := h.flushed (more := [b.box]) (I'' := g.inl)
      rw [if_pos e, List.append_nil] at this
      simpa [boxesOf, Flow.pushBlk, e1] using this
    simp only [Styled.put, Bool.false_or]
    split
    · split
      · exact h.inlines (.more _ _)
      · rename_i he
        exact push _ _ rfl rfl (by simpa [Flow.note, Flow.claim] using he)
    · split
      · split
        · exact h.inlines (.more _ _)
        · rename_i he
          exact push _ _ rfl rfl (by simpa [Flow.note, Flow.claim] using he)
      · have := fun b : Blk => h.flushed (more := [b.box]) (I'' := [])
        have e : ∀ b : Blk, boxesOf ((((f.note id ⟨none, true⟩).claim id).flush cst).pushBlk b) =
            (boxesOf f ++ if f.inl = [] then [] else [anonBox cst f.inl]) ++ [b.box] := by
          intro b
          have := boxesOf_flush cst ((f.note id ⟨none, true⟩).claim id)
          simp only [boxesOf, Flow.pushBlk, List.map_append, List.map_cons, List.map_nil] at this ⊢
          rw [this]
          rfl
        have ei : ∀ b : Blk, ((((f.note id ⟨none, true⟩).claim id).flush cst).pushBlk b).inl = [] := by
          intro b
          unfold Flow.flush
          split
          · rename_i he
            simpa [Flow.note, Flow.claim, Flow.pushBlk] using he
          · rfl
        split
        · rw [e, ei]; exact this _
        · rw [e, ei]; exact this _

theorem putAll_flow (C : BoxContext) (cst : Style) {w : Bool} {B : List BlockLevelBox} {I : List InlineLevelBox} :
    ∀ (cs : List Styled) (f : Flow), goodAll false cs = true → FlowLonger w cst B I (boxesOf f) f.inl →
    FlowLonger w cst B I (boxesOf (putAll C cst false cs f)) (putAll C cst false cs f).inl
  | [], f, _, h => h
  | c :: cs, f, hg, h => by
    simp only [goodAll, Bool.and_eq_true] at hg
    exact putAll_flow C cst cs (c.put C cst false f) hg.2 (put_flow C cst c f hg.1 h)

end

/-- content without blocks that have to be moved -/
theorem fixed_append {a b : List InlineLevelBox} : inlinesFixed (a ++ b) ↔ inlinesFixed a ∧ inlinesFixed b := by
  induction a with
  | nil => simp [inlinesFixed]
  | cons x a ih => simp [inlinesFixed, ih, and_assoc]

theorem inlinesNoAbs_append {a b : List InlineLevelBox} : inlinesNoAbs (a ++ b) ↔ inlinesNoAbs a ∧ inlinesNoAbs b := by
  induction a with
  | nil => simp [inlinesNoAbs]
  | cons x a ih => simp [inlinesNoAbs, ih, and_assoc]

/-- nothing in the builder is absolutely positioned or moved by a part of the height -/
structure Still (f : Flow) : Prop where
  blocks : blocksNoAbs (boxesOf f)
  inl : inlinesNoAbs f.inl
  fixed : inlinesFixed f.inl

theorem addRun_still {C : BoxContext} {st : Style} {t : Text} {l : List InlineLevelBox} (h : inlinesNoAbs l ∧ inlinesFixed l) :
    inlinesNoAbs (addRun C st t l) ∧ inlinesFixed (addRun C st t l) := by
  unfold addRun
  split
  · exact h
  · rcases appendText_cases C st t l with ⟨s, old, f, pre, rfl, e⟩ | ⟨-, e⟩
    · rw [e]
      simpa [inlinesNoAbs_append, fixed_append, inlinesNoAbs, inlineNoAbs, inlinesFixed, inlineFixed] using h
    · rw [e]
      simpa [inlinesNoAbs_append, fixed_append, inlinesNoAbs, inlineNoAbs, inlinesFixed, inlineFixed] using h

theorem textInto_still {C : BoxContext} {st : Style} {t : Text} {l : List InlineLevelBox}
    (h : inlinesNoAbs l ∧ inlinesFixed l) : inlinesNoAbs (textInto C st t l) ∧ inlinesFixed (textInto C st t l) := by
  obtain ⟨b, e⟩ := textInto_exact C st l
  rw [e]
  exact addRun_still h

theorem Still.flush {f : Flow} (h : Still f) (cst : Style) : Still (f.flush cst) := by
  have e := boxesOf_flush cst f
  refine ⟨?_, ?_, ?_⟩
  · rw [e, blocksNoAbs_append]
    refine ⟨h.blocks, ?_⟩
    split
    · trivial
    · exact ⟨h.inl, trivial⟩
  · unfold Flow.flush
    split
    · exact h.inl
    · trivial
  · unfold Flow.flush
    split
    · exact h.fixed
    · trivial

theorem Still.pushBlk {f : Flow} (h : Still f) {b : Blk} (hb : blockNoAbs b.box) : Still (f.pushBlk b) := by
  refine ⟨?_, h.inl, h.fixed⟩
  simp only [boxesOf, Flow.pushBlk, List.map_append, List.map_cons, List.map_nil, blocksNoAbs_append, blocksNoAbs, and_true]
  exact ⟨h.blocks, hb⟩

theorem Still.container {f : Flow} (h : Still f) (cst : Style) : noAbs (f.container cst).1 := by
  unfold Flow.container
  split
  · exact h.inl
  · exact (h.flush cst).blocks

theorem Still.empty : Still Flow.empty := ⟨trivial, trivial, trivial⟩

mutual

theorem put_still (C : BoxContext) : ∀ (c : Styled) (cst : Style) (inl : Bool) (f : Flow), staysPut c → Still f →
    Still (c.put C cst inl f)
  | .other, _, _, f, _, h => h
  | .hidden id, _, _, f, _, h => ⟨h.1, h.2, h.3⟩
  | .text st t, _, _, f, _, h => by
    have := textInto_still (C := C) (st := st) (t := t) ⟨h.inl, h.fixed⟩
    exact ⟨h.1, this.1, this.2⟩
  | .contents id ks, cst, inl, f, hs, h => by
    simp only [staysPut] at hs
    exact putAll_still C ks cst inl ((f.note id ⟨some .displayContents, false⟩).claim id) hs ⟨h.1, h.2, h.3⟩
  | .elem id st .inline _ ks, cst, inl, f, hs, h => by
    simp only [staysPut] at hs
    have := putAll_still C ks cst true ((({ f with inl := [] } : Flow).note id ⟨none, true⟩).claim id) hs.2
      ⟨h.1, trivial, trivial⟩
    refine ⟨this.1, ?_, ?_⟩
    · simp only [Styled.put, Flow.note, inlinesNoAbs_append, inlinesNoAbs, inlineNoAbs, and_true]
      exact ⟨h.inl, this.inl⟩
    · simp only [Styled.put, Flow.note, fixed_append, inlinesFixed, inlineFixed, and_true]
      exact ⟨h.fixed, hs.1, this.fixed⟩
  | .elem id st .block ins ks, cst, inl, f, hs, h => by
    simp only [staysPut] at hs
    have hr := (putAll_still C ks st false Flow.empty hs.2 Still.empty).container st
    simp only [Styled.put, hs.1, Bool.false_eq_true, if_false]
    split
    · split
      · refine ⟨h.1, ?_, ?_⟩
        · simp only [Flow.note, Flow.absorb, Flow.push, inlinesNoAbs_append, inlinesNoAbs, inlineNoAbs, bfcNoAbs, and_true]
          exact ⟨h.inl, hr⟩
        · simp only [Flow.note, Flow.absorb, Flow.push, fixed_append, inlinesFixed, inlineFixed, and_true]
          exact h.fixed
      · apply Still.pushBlk
        · exact ⟨h.1, h.2, h.3⟩
        · simpa only [blockNoAbs, bfcNoAbs] using hr
    · have hf : Still (((f.note id ⟨none, true⟩).claim id).flush cst) := by
        apply Still.flush
        exact ⟨h.1, h.2, h.3⟩
      split
      · refine hf.pushBlk ?_
        simpa only [blockNoAbs, bfcNoAbs] using hr
      · refine hf.pushBlk ?_
        simpa only [blockNoAbs, bfcNoAbs] using hr

theorem putAll_still (C : BoxContext) : ∀ (cs : List Styled) (cst : Style) (inl : Bool) (f : Flow), staysPutAll cs →
    Still f → Still (putAll C cst inl cs f)
  | [], _, _, f, _, h => h
  | c :: cs, cst, inl, f, hs, h => by
    simp only [staysPutAll] at hs
    exact putAll_still C cs cst inl _ hs.2 (put_still C c cst inl f hs.1 h)

end

theorem containerOf_noAbs (C : BoxContext) (st : Style) {cs : List Styled} (h : staysPutAll cs) :
    noAbs (containerOf C st cs).1 :=
  (putAll_still C cs st false Flow.empty h Still.empty).container st

/-! ## The containers -/

theorem container_eq (cst : Style) (f : Flow) : (f.container cst).1 =
    if f.inl ≠ [] ∧ boxesOf f = [] then .inlineFormattingContext cst f.inl
    else .blockLevelBoxes (boxesOf f ++ if f.inl = [] then [] else [anonBox cst f.inl]) := by
  have e := boxesOf_flush cst f
  unfold Flow.container
  by_cases h : f.inl ≠ [] ∧ boxesOf f = []
  · have h2 : f.blocks = [] := by simpa [boxesOf] using h.2
    rw [if_pos h, if_pos (by simp [h.1, h2])]
  · rw [if_neg h, if_neg (by simpa [boxesOf] using h), ← e]
    rfl

theorem FlowLonger.container {w : Bool} {cst : Style} {f f' : Flow}
    (h : FlowLonger w cst (boxesOf f) f.inl (boxesOf f') f'.inl) (hf : inlinesFixed f.inl) :
    Longer w inlinesFixed anywhere (f.container cst).1 (f'.container cst).1 := by
  rw [container_eq, container_eq]
  generalize boxesOf f = B at *
  generalize boxesOf f' = B' at *
  generalize f.inl = I at *
  generalize f'.inl = I' at *
  by_cases hI : I = []
  · subst hI
    simp only [ne_eq, not_true, false_and, if_false, if_true, List.append_nil]
    by_cases hB : B = []
    · subst hB
      exact .empty _
    · cases h with
      | inl hw _ h =>
        rw [if_neg (by simp [hB])]
        exact .blocks _ _
      | wrapped hI => exact absurd rfl hI
      | blocks _ more =>
        rw [if_neg (by simp [hB]), List.append_assoc]
        exact .blocks _ _
      | last _ B0 b b' e h more =>
        subst e
        rw [if_neg (by simp), List.append_assoc, List.cons_append]
        exact .last _ _ _ _ h
  · cases h with
    | inl hw _ h =>
      have hI' := longerInlines_ne h hI
      by_cases hB : B = []
      · rw [if_pos ⟨hI, hB⟩, if_pos ⟨hI', hB⟩]
        exact .words hw _ _ _ h
      · rw [if_neg (fun k => hB k.2), if_neg hI, if_neg (fun k => hB k.2), if_neg hI']
        exact .last _ [] _ _ (.same _ _ _ (.words hw _ _ _ h))
    | wrapped _ I1 h more =>
      by_cases hB : B = []
      · subst hB
        rw [if_pos ⟨hI, rfl⟩, if_neg (by simp)]
        exact .wrapped _ _ _ hf h _
      · rw [if_neg (fun k => hB k.2), if_neg hI, if_neg (fun k => by simp at k), List.append_assoc, List.cons_append]
        rcases h with ⟨hw, h⟩ | rfl
        · exact .last _ _ _ _ (.same _ _ _ (.words hw _ _ _ h))
        · have := Longer.blocks (words := w) (may := inlinesFixed) (joins := anywhere) (B ++ [anonBox cst I1])
            (more ++ if I' = [] then [] else [anonBox cst I'])
          simpa using this
    | blocks hI' => exact absurd hI' hI
    | last hI' => exact absurd hI' hI

/-! ## Content that grows -/

theorem endsBlock_inl (C : BoxContext) (cst : Style) {cs : List Styled} (h : endsBlock cs = true) (f : Flow) :
    (putAll C cst false cs f).inl = [] := by
  unfold endsBlock opensBlock at h
  induction cs using List.reverseRecOn with
  | nil => simp at h
  | append_singleton cs c ih =>
    rw [putAll_append]
    simp only [putAll]
    rw [List.reverse_append, List.reverse_singleton, List.singleton_append, List.find?_cons] at h
    cases c with
    | other => exact ih (by simpa [isNothing] using h)
    | hidden id => exact ih (by simpa [isNothing] using h)
    | text st t => simp [isNothing, isBlock] at h
    | contents id ks => simp [isNothing, isBlock] at h
    | elem id st o ins ks =>
      cases o with
      | inline => simp [isNothing, isBlock] at h
      | block =>
        simp only [isNothing, Bool.not_false, isBlock, Option.any_some, Style.outOfFlow, Bool.not_eq_true',
          Bool.or_eq_false_iff] at h
        simp only [Styled.put, h.1, h.2, Bool.false_eq_true, if_false]
        have ei : ∀ (b : Blk) (f : Flow), ((f.flush cst).pushBlk b).inl = [] := by
          intro b f
          unfold Flow.flush
          split
          · rename_i he
            simpa [Flow.pushBlk] using he
          · rfl
        split <;> exact ei _ _

/-- a block ends the last line -/
theorem put_block (C : BoxContext) (cst : Style) {w : Bool} (f : Flow) {c : Styled} (hc : isBlock c = true) :
    FlowLonger w cst (boxesOf f) f.inl (boxesOf (c.put C cst false f)) (c.put C cst false f).inl := by
  cases c with
  | other => cases hc
  | hidden id => cases hc
  | text st t => cases hc
  | contents id ks => cases hc
  | elem id st o ins ks =>
    cases o with
    | inline => cases hc
    | block =>
      simp only [isBlock, Style.outOfFlow, Bool.not_eq_true', Bool.or_eq_false_iff] at hc
      simp only [Styled.put, hc.1, hc.2, Bool.false_eq_true, if_false]
      have e : ∀ b : Blk, boxesOf ((((f.note id ⟨none, true⟩).claim id).flush cst).pushBlk b) =
          (boxesOf f ++ if f.inl = [] then [] else [anonBox cst f.inl]) ++ [b.box] := by
        intro b
        have := boxesOf_flush cst ((f.note id ⟨none, true⟩).claim id)
        simp only [boxesOf, Flow.pushBlk, List.map_append, List.map_cons, List.map_nil] at this ⊢
        rw [this]
        rfl
      have key : ∀ (b : BlockLevelBox) (I' : List InlineLevelBox), FlowLonger w cst (boxesOf f) f.inl
          ((boxesOf f ++ if f.inl = [] then [] else [anonBox cst f.inl]) ++ [b]) I' := by
        intro b I'
        rw [List.append_assoc]
        by_cases hI : f.inl = []
        · exact .blocks hI _ _
        · rw [if_neg hI]
          exact .wrapped hI _ (.inr rfl) _ _
      split
      · rw [e]; exact key _ _
      · rw [e]; exact key _ _

theorem opensBlock_flow (C : BoxContext) (cst : Style) {w : Bool} : ∀ (m : List Styled) (f : Flow), opensBlock m = true →
    goodAll false m = true →
    FlowLonger w cst (boxesOf f) f.inl (boxesOf (putAll C cst false m f)) (putAll C cst false m f).inl
  | [], f, h, _ => by simp [opensBlock] at h
  | c :: m, f, h, hg => by
    simp only [goodAll, Bool.and_eq_true] at hg
    by_cases hn : isNothing c = true
    · have h' : opensBlock m = true := by simpa [opensBlock, List.find?_cons, hn] using h
      have := opensBlock_flow C cst (w := w) m (c.put C cst false f) h' hg.2
      cases c with
      | other => exact this
      | hidden id => exact this
      | text st t => cases hn
      | contents id ks => cases hn
      | elem id st o ins ks => cases hn
    · have hb : isBlock c = true := by simpa [opensBlock, List.find?_cons, hn] using h
      exact putAll_flow C cst m _ hg.2 (put_block C cst f hb)

theorem then_flow (C : BoxContext) (cst : Style) {w : Bool} {B : List BlockLevelBox} {I : List InlineLevelBox}
    (m : List Styled) (g : Flow) (hm : goodAll false m = true) (h : FlowLonger w cst B I (boxesOf g) g.inl) :
    FlowLonger w cst B I (boxesOf (putAll C cst false m g)) (putAll C cst false m g).inl :=
  putAll_flow C cst m g hm h

theorem staysPutAll_append {a b : List Styled} : staysPutAll (a ++ b) ↔ staysPutAll a ∧ staysPutAll b := by
  induction a with
  | nil => simp [staysPutAll]
  | cons x a ih => simp [staysPutAll, ih, and_assoc]

theorem flow_grown (C : BoxContext) {w : Bool} {cs cs' : List Styled} (h : Grown w cs cs') :
    ∀ (cst : Style) (f : Flow), goodAll false cs = true → goodAll false cs' = true → staysPutAll cs →
    FlowLonger w cst (boxesOf (putAll C cst false cs f)) (putAll C cst false cs f).inl
      (boxesOf (putAll C cst false cs' f)) (putAll C cst false cs' f).inl := by
  induction h with
  | more cs m h =>
    intro cst f hg hg' _
    rw [putAll_append]
    have hm := (goodAll_more.1 hg').2
    rcases h with h | h | h
    · exact then_flow C cst m _ hm (.inl h _ LongerInlines.rfl)
    · exact opensBlock_flow C cst m _ h hm
    · refine then_flow C cst m _ hm ?_
      have := FlowLonger.blocks (w := w) (cst := cst) (B := boxesOf (putAll C cst false cs f))
        (endsBlock_inl C cst h f) [] (putAll C cst false cs f).inl
      simpa using this
  | text hw cs m st t t' =>
    intro cst f hg hg' _
    rw [putAll_append, putAll_append]
    have hm := (goodAll_more.1 hg').2
    simp only [goodAll, Bool.and_eq_true] at hm
    simp only [putAll, Styled.put]
    exact then_flow C cst m _ hm.2 (.inl hw _ (textInto_longer C st t t' _))
  | contents cs m id ks ks' _ ih =>
    intro cst f hg hg' hs
    rw [putAll_append, putAll_append]
    have h1 := (goodAll_more.1 hg).2
    have h1' := (goodAll_more.1 hg').2
    have hs := (staysPutAll_append.1 hs).2
    simp only [goodAll, Bool.and_eq_true, Styled.good, and_true] at h1 h1'
    simp only [staysPutAll, staysPut, and_true] at hs
    simp only [putAll, Styled.put]
    exact then_flow C cst m _ h1'.2 (ih cst _ h1.2 h1'.1.2 hs)
  | block cs m id st inside ks ks' hst _ ih =>
    intro cst f hg hg' hs
    rw [putAll_append, putAll_append]
    have h1 := (goodAll_more.1 hg).2
    have h1' := (goodAll_more.1 hg').2
    have hs := (staysPutAll_append.1 hs).2
    simp only [goodAll, Bool.and_eq_true, Styled.good, and_true] at h1 h1'
    simp only [staysPutAll, staysPut, and_true] at hs
    have hst' := hst
    simp only [Style.outOfFlow, Bool.or_eq_false_iff] at hst'
    have hL := (ih st Flow.empty h1.2.2 h1'.1.2.2 hs.2).container (putAll_still C ks st false Flow.empty hs.2 Still.empty).fixed
    generalize putAll C cst false cs f = g
    simp only [putAll]
    refine then_flow C cst m _ h1'.2 ?_
    simp only [Styled.put, hst'.1, hst'.2, Bool.false_eq_true, if_false]
    have e : ∀ b : Blk, boxesOf ((((g.note id ⟨none, true⟩).claim id).flush cst).pushBlk b) =
        (boxesOf g ++ if g.inl = [] then [] else [anonBox cst g.inl]) ++ [b.box] := by
      intro b
      have := boxesOf_flush cst ((g.note id ⟨none, true⟩).claim id)
      simp only [boxesOf, Flow.pushBlk, List.map_append, List.map_cons, List.map_nil] at this ⊢
      rw [this]
      rfl
    have ei : ∀ b : Blk, ((((g.note id ⟨none, true⟩).claim id).flush cst).pushBlk b).inl = [] := by
      intro b
      unfold Flow.flush
      split
      · rename_i he
        simpa [Flow.note, Flow.claim, Flow.pushBlk] using he
      · rfl
    cases inside with
    | flow =>
      simp only
      rw [e, e, ei, ei]
      exact .last rfl _ _ _ rfl (.same _ _ _ hL) [] _
    | flowRoot =>
      simp only
      rw [e, e, ei, ei]
      exact .last rfl _ _ _ rfl (.independent _ _ _ _ _ hL) [] _
  | inline hw cs m id st inside ks ks' h ih =>
    intro cst f hg hg' _
    rw [putAll_append, putAll_append]
    have h1 := (goodAll_more.1 hg).2
    have h1' := (goodAll_more.1 hg').2
    cases inside with
    | flowRoot => simp [goodAll, Styled.good] at h1
    | flow =>
      simp only [goodAll, Bool.and_eq_true, Styled.good, and_true] at h1 h1'
      generalize putAll C cst false cs f = g
      simp only [putAll]
      refine then_flow C cst m _ h1'.2 ?_
      have a := putAll_inline C cst ks ((({ g with inl := [] } : Flow).note id ⟨none, true⟩).claim id) h1.2
      have b := putAll_inline C cst ks' ((({ g with inl := [] } : Flow).note id ⟨none, true⟩).claim id) h1'.1.2
      have c := inline_grown C cst h ((({ g with inl := [] } : Flow).note id ⟨none, true⟩).claim id) h1.2 h1'.1.2
      simp only [Styled.put, boxesOf, Flow.note] at a b c ⊢
      rw [a.1, b.1]
      exact .inl hw _ (.inside _ _ _ _ _ _ c)

theorem containerOf_grown (C : BoxContext) (st : Style) {w : Bool} {cs cs' : List Styled} (h : Grown w cs cs')
    (hg : goodContent cs = true) (hg' : goodContent cs' = true) (hs : staysPutAll cs) :
    Longer w inlinesFixed anywhere (containerOf C st cs).1 (containerOf C st cs').1 := by
  simp only [goodContent, Bool.and_eq_true] at hg hg'
  exact (flow_grown C h st Flow.empty hg.2 hg'.2 hs).container (putAll_still C cs st false Flow.empty hs Still.empty).fixed

/-! ## Fonts in which longer texts are wider -/

theorem LongerInlines.anyJoin {E : TextEnv} (hE : ∀ f a b, E.width f a ≤ E.width f (a ++ b)) {bs bs' : List InlineLevelBox}
    (h : LongerInlines anywhere bs bs') : LongerInlines (joinsOk E) bs bs' := by
  induction h with
  | more bs m => exact .more _ _
  | text bs st t t' f h => exact .text _ _ _ _ _ (.inr (hE f))
  | inside bs st first last cs cs' h ih => exact .inside _ _ _ _ _ _ ih
  | trans bs bs' bs'' h h' ih ih' => exact .trans _ _ _ ih ih'

mutual

theorem Longer.anyJoin {E : TextEnv} {w : Bool} (hE : w = true → ∀ f a b, E.width f a ≤ E.width f (a ++ b)) :
    ∀ {c c' : BlockContainer}, Longer w inlinesFixed anywhere c c' → Longer w inlinesFixed (joinsOk E) c c'
  | _, _, .blocks bs more => .blocks bs more
  | _, _, .empty c => .empty c
  | _, _, .last bs more b b' h => .last _ _ _ _ (LongerBlock.anyJoin hE h)
  | _, _, .words h st bs bs' hb => .words h _ _ _ (LongerInlines.anyJoin (hE h) hb)
  | _, _, .wrapped st bs bs' h hb more =>
    .wrapped st _ _ h (hb.imp (fun k => ⟨k.1, LongerInlines.anyJoin (hE k.1) k.2⟩) id) _

theorem LongerBlock.anyJoin {E : TextEnv} {w : Bool} (hE : w = true → ∀ f a b, E.width f a ≤ E.width f (a ++ b)) :
    ∀ {b b' : BlockLevelBox}, LongerBlock w inlinesFixed anywhere b b' → LongerBlock w inlinesFixed (joinsOk E) b b'
  | _, _, .same st c c' h => .same _ _ _ (Longer.anyJoin hE h)
  | _, _, .independent st c c' fl fl' h => .independent _ _ _ _ _ (Longer.anyJoin hE h)

end

end Sinab.Append
