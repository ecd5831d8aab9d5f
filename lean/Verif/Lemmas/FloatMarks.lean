import Verif.Spec.FloatMarks
import Verif.Lemmas.ConstructGood

/-! Box trees record correctly which formatting contexts contain floats. -/

namespace Sinab

theorem inlineMarked_append {a b : List InlineLevelBox} :
    inlineMarked (a ++ b) ↔ inlineMarked a ∧ inlineMarked b := by
  induction a with
  | nil => simp [inlineMarked]
  | cons x a ih => simp only [List.cons_append, inlineMarked, ih, and_assoc]

theorem inlineFloats_append {a b : List InlineLevelBox} :
    inlineFloats (a ++ b) = (inlineFloats a || inlineFloats b) := by
  induction a with
  | nil => simp [inlineFloats]
  | cons x a ih => simp only [List.cons_append, inlineFloats, ih, Bool.or_assoc]

theorem appendText_marked {C : BoxContext} {st : Style} {t : Text} {a : List InlineLevelBox}
    (h : inlineMarked a) : inlineMarked (appendText C st t a) := by
  unfold appendText
  split
  · rename_i h1
    rcases List.eq_nil_or_concat a with rfl | ⟨b, x, rfl⟩
    · simp at h1
    · simp only [List.concat_eq_append] at h h1 ⊢
      rw [List.dropLast_concat]
      exact inlineMarked_append.2 ⟨(inlineMarked_append.1 h).1, trivial, trivial⟩
  · exact inlineMarked_append.2 ⟨h, trivial, trivial⟩

theorem appendText_floats {C : BoxContext} {st : Style} {t : Text} {a : List InlineLevelBox} :
    inlineFloats (appendText C st t a) = inlineFloats a := by
  unfold appendText
  split
  · rename_i h1
    rcases List.eq_nil_or_concat a with rfl | ⟨b, x, rfl⟩
    · simp at h1
    · simp only [List.concat_eq_append] at h1 ⊢
      rw [List.dropLast_concat, inlineFloats_append, inlineFloats_append]
      simp only [List.getLast?_append, List.getLast?_singleton, Option.some_or, Option.some.injEq] at h1
      subst h1
      simp [inlineFloats, InlineLevelBox.floats]
  · simp [inlineFloats_append, inlineFloats, InlineLevelBox.floats]

/-- boxes that wait to be finished: those whose floats have been recorded -/
def IntermediateBox.marked : IntermediateBox → Prop
  | .sameFormattingContextBlock _ (.inlineFormattingContext _ boxes) => inlineMarked boxes
  | _ => True

/-- floats that have been met -/
def IntermediateBox.floats : IntermediateBox → Bool
  | .sameFormattingContextBlock _ (.inlineFormattingContext _ boxes) => inlineFloats boxes
  | .outOfFlowFloatBox _ _ => true
  | _ => false

/-- the innermost inline boxes and what is around them -/
def openFloats (B : Builder) : Bool := B.stack.any fun o => inlineFloats o.children

/-- everything in the builder is marked, and it has recorded the floats -/
structure Builder.Marked (B : Builder) : Prop where
  blocks : ∀ p ∈ B.blockLevelBoxes, p.1.marked
  inlines : inlineMarked B.inlines
  stack : ∀ o ∈ B.stack, inlineMarked o.children
  flag : B.containsFloats = (B.blockLevelBoxes.any (fun p => p.1.floats) || inlineFloats B.inlines ||
    openFloats B)

namespace Builder.Marked

variable {B : Builder}

theorem current (h : B.Marked) : inlineMarked B.current := by
  unfold Builder.current
  split
  · rename_i top rest hs
    exact h.stack top (by simp [hs])
  · exact h.inlines

/-- replace the current boxes by boxes with more floats, or none -/
theorem setCurrent (h : B.Marked) {bs : List InlineLevelBox} (hb : inlineMarked bs) {fl : Bool}
    (hf : inlineFloats bs = (inlineFloats B.current || fl)) :
    (({ B with containsFloats := B.containsFloats || fl } : Builder).setCurrent bs).Marked := by
  unfold Builder.setCurrent
  simp only
  split
  · rename_i top rest hs
    have hc : B.current = top.children := by simp [Builder.current, hs]
    rw [hc] at hf
    refine ⟨h.blocks, h.inlines, ?_, ?_⟩
    · intro o ho
      rcases List.mem_cons.1 ho with rfl | ho
      · exact hb
      · exact h.stack o (by simp [hs, ho])
    · have := h.flag
      simp only [openFloats, hs, List.any_cons] at this ⊢
      rw [this, hf]
      ac_rfl
  · rename_i hs
    have hc : B.current = B.inlines := by simp [Builder.current, hs]
    rw [hc] at hf
    refine ⟨h.blocks, hb, h.stack, ?_⟩
    have := h.flag
    simp only [openFloats, hs, List.any_nil, Bool.or_false] at this ⊢
    rw [this, hf]
    ac_rfl

theorem setCurrent' (h : B.Marked) {bs : List InlineLevelBox} (hb : inlineMarked bs)
    (hf : inlineFloats bs = inlineFloats B.current) : (B.setCurrent bs).Marked := by
  have := h.setCurrent hb (fl := false) (by simpa using hf)
  simpa using this

theorem handleText (h : B.Marked) {C : BoxContext} {t : Text} {st : Style} {B' : Builder}
    (h1 : B.handleText C t st = .ok B') : B'.Marked := by
  have hc : ∀ t, (B.handleTextCollapse C t st).Marked := by
    intro t
    unfold Builder.handleTextCollapse
    simp only
    split
    · exact h.setCurrent' (appendText_marked h.current) appendText_floats
    · exact h
  have hp : ∀ t, (B.handleTextPreserve C t st).Marked := by
    intro t
    unfold Builder.handleTextPreserve
    split
    · exact h.setCurrent' (appendText_marked h.current) appendText_floats
    · exact h
  unfold Builder.handleText at h1
  split at h1
  · injection h1 with h1; subst h1; exact hc t
  · injection h1 with h1; subst h1; exact hc t
  · injection h1 with h1; subst h1; exact hp t
  · injection h1 with h1; subst h1; exact hp t
  · cases h1

theorem push (h : B.Marked) {b : IntermediateBox} {slot : Option NodeId} (hb : b.marked) :
    ({ B with
      containsFloats := B.containsFloats || b.floats
      blockLevelBoxes := B.blockLevelBoxes ++ [(b, slot)] } : Builder).Marked := by
  refine ⟨?_, h.inlines, h.stack, ?_⟩
  · intro p hp
    rcases List.mem_append.1 hp with hp | hp
    · exact h.blocks p hp
    · rw [List.mem_singleton] at hp
      subst hp
      exact hb
  · have := h.flag
    simp only [List.any_append, List.any_cons, List.any_nil, Bool.or_false, openFloats] at this ⊢
    rw [this]
    ac_rfl

theorem push' (h : B.Marked) {b : IntermediateBox} {slot : Option NodeId} (hb : b.marked)
    (hf : b.floats = false) :
    ({ B with blockLevelBoxes := B.blockLevelBoxes ++ [(b, slot)] } : Builder).Marked := by
  have := h.push (slot := slot) hb
  simpa [hf] using this

theorem endOngoing (h : B.Marked) {B' : Builder} (h1 : B.endOngoing = .ok B') : B'.Marked := by
  unfold Builder.endOngoing at h1
  split at h1
  · cases h1
  · rename_i hs
    have hs : B.stack = [] := by simpa using hs
    split at h1
    · injection h1 with h1; subst h1; exact h
    · injection h1 with h1
      subst h1
      refine ⟨?_, trivial, h.stack, ?_⟩
      · intro p hp
        rcases List.mem_append.1 hp with hp | hp
        · exact h.blocks p hp
        · rw [List.mem_singleton] at hp
          subst hp
          exact h.inlines
      · have := h.flag
        simp only [openFloats, hs, List.any_nil, Bool.or_false, List.any_append, List.any_cons,
          inlineFloats, IntermediateBox.floats] at this ⊢
        exact this

theorem wrapFragments_marked : ∀ (os : List OpenInline) (inner : InlineLevelBox), inner.marked →
    (∀ o ∈ os, inlineMarked o.children) → (Builder.wrapFragments inner os).marked ∧
    (Builder.wrapFragments inner os).floats =
      (inner.floats || os.any fun o => inlineFloats o.children) := by
  intro os
  induction os with
  | nil => intro inner h _; exact ⟨h, by simp [Builder.wrapFragments]⟩
  | cons o os ih =>
    intro inner h ho
    obtain ⟨h1, h2⟩ := ih (.inlineBox o.style o.firstFragment false (o.children ++ [inner]))
      (inlineMarked_append.2 ⟨ho o (by simp), h, trivial⟩) (fun o' h' => ho o' (by simp [h']))
    refine ⟨h1, ?_⟩
    rw [Builder.wrapFragments, h2]
    simp only [InlineLevelBox.floats, inlineFloats_append, inlineFloats, Bool.or_false,
      List.any_cons]
    ac_rfl

theorem splitInlines (h : B.Marked) : B.splitInlines.Marked := by
  unfold Builder.splitInlines
  split
  · exact h
  · rename_i last parents hs
    obtain ⟨h1, h2⟩ := wrapFragments_marked parents
      (.inlineBox last.style last.firstFragment false last.children)
      (h.stack last (by simp [hs])) (fun o ho => h.stack o (by simp [hs, ho]))
    refine ⟨h.blocks, inlineMarked_append.2 ⟨h.inlines, h1, trivial⟩, ?_, ?_⟩
    · intro o ho
      simp only [List.mem_map] at ho
      obtain ⟨o', _, rfl⟩ := ho
      exact trivial
    · have := h.flag
      have e : ((B.stack.map fun o : OpenInline => (⟨o.style, false, []⟩ : OpenInline)).any
          fun o => inlineFloats o.children) = false := by
        simp [inlineFloats]
      simp only [openFloats, e, inlineFloats_append, inlineFloats, h2, Bool.or_false,
        InlineLevelBox.floats]
      simp only [openFloats, hs, List.any_cons] at this
      rw [this]
      ac_rfl

theorem handleBlockLevel (h : B.Marked) {style : Style} {inside : DisplayInside} {id : NodeId}
    {slot : Option NodeId} {B' : Builder} (h1 : B.handleBlockLevel style inside id slot = .ok B') :
    B'.Marked := by
  unfold Builder.handleBlockLevel at h1
  obtain ⟨B1, h2, h1⟩ := bind_eq_ok.1 h1
  injection h1 with h1
  subst h1
  have := h.splitInlines.endOngoing h2
  exact this.push' (by cases inside <;> trivial) (by cases inside <;> rfl)

theorem openInline (h : B.Marked) (style : Style) : (B.openInline style).Marked := by
  refine ⟨h.blocks, h.inlines, ?_, ?_⟩
  · intro o ho
    rcases List.mem_cons.1 ho with rfl | ho
    · exact trivial
    · exact h.stack o ho
  · have := h.flag
    simpa [openFloats, Builder.openInline, inlineFloats] using this

theorem closeInline (h : B.Marked) {box : InlineLevelBox} {B' : Builder}
    (h1 : B.closeInline = .ok (box, B')) : B'.Marked := by
  unfold Builder.closeInline at h1
  split at h1
  · cases h1
  · rename_i top rest hs
    injection h1 with h1
    injection h1 with h1 h2
    subst h1 h2
    cases rest with
    | nil =>
      refine ⟨h.blocks, inlineMarked_append.2 ⟨h.inlines, h.stack top (by simp [hs]), trivial⟩,
        by intro o ho; simp [Builder.setCurrent] at ho, ?_⟩
      have := h.flag
      simp only [openFloats, hs, List.any_cons, List.any_nil, Bool.or_false] at this
      simp only [Builder.setCurrent, Builder.current, inlineFloats_append, inlineFloats,
        InlineLevelBox.floats, openFloats, List.any_nil, Bool.or_false]
      rw [this]
      ac_rfl
    | cons next rest =>
      refine ⟨h.blocks, h.inlines, ?_, ?_⟩
      · intro o ho
        simp only [Builder.setCurrent, Builder.current] at ho
        rcases List.mem_cons.1 ho with rfl | ho
        · exact inlineMarked_append.2 ⟨h.stack next (by simp [hs]), h.stack top (by simp [hs]), trivial⟩
        · exact h.stack o (by simp [hs, ho])
      · have := h.flag
        simp only [openFloats, hs, List.any_cons] at this
        simp only [Builder.setCurrent, Builder.current, inlineFloats_append, inlineFloats,
          InlineLevelBox.floats, openFloats, List.any_cons, Bool.or_false]
        rw [this]
        ac_rfl

theorem new (style : Style) : (Builder.new style).Marked :=
  ⟨by simp [Builder.new], trivial, by simp [Builder.new], by simp [Builder.new, inlineFloats, openFloats]⟩

end Builder.Marked

/-- marks for a given fuel -/
structure MarkedUpTo (C : BoxContext) (n : Nat) : Prop where
  traverse : ∀ st id L B L' B', B.Marked → traverse C n st id L B = .ok (L', B') → B'.Marked
  element : ∀ id e st L B L' B', B.Marked → traverseElement C n id e st L B = .ok (L', B') →
    B'.Marked
  handle : ∀ st o i id L B L' B', B.Marked → handleElement C n st o i id L B = .ok (L', B') →
    B'.Marked
  container : ∀ st id L c fl L', constructContainer C n st id L = .ok (c, fl, L') →
    c.marked ∧ fl = c.floats
  boxes : ∀ bs L r fl L', (∀ p ∈ bs, p.1.marked) → finishBoxes C n bs L = .ok (r, fl, L') →
    blockMarked r ∧ (bs.any (fun p => p.1.floats) || fl) = blockFloats r
  box : ∀ b L r fl L', b.marked → finishBox C n b L = .ok (r, fl, L') →
    r.marked ∧ (b.floats || fl) = r.floats

theorem markedUpTo (C : BoxContext) : ∀ n, MarkedUpTo C n := by
  intro n
  induction n with
  | zero =>
    constructor <;> intros <;> rename_i h <;> simp only [traverse, traverseElement, handleElement,
      constructContainer, finishBoxes, finishBox] at h <;> cases h
  | succ n ih =>
    constructor
    · intro st id L B L' B' hB h
      cases id with
      | none => simp only [traverse] at h; injection h with h; injection h with _ h; subst h; exact hB
      | some id =>
        simp only [traverse] at h
        obtain ⟨nd, _, h⟩ := bind_eq_ok.1 h
        obtain ⟨⟨L1, B1⟩, h1, h⟩ := bind_eq_ok.1 h
        rw [withSlots_eq_ok] at h1
        refine ih.traverse _ _ _ _ _ _ ?_ h
        split at h1
        · obtain ⟨B2, h2, h1⟩ := bind_eq_ok.1 h1
          injection h1 with h1; injection h1 with _ h1; subst h1
          exact hB.handleText h2
        · exact ih.element _ _ _ _ _ _ _ hB h1
        · injection h1 with h1; injection h1 with _ h1; subst h1; exact hB
    · intro id e st L B L' B' hB h
      simp only [traverseElement] at h
      obtain ⟨style, hst, h⟩ := bind_eq_ok.1 h
      split at h
      · obtain ⟨B2, h2, h1⟩ := bind_eq_ok.1 h
        injection h1 with h1; injection h1 with _ h1; subst h1
        exact hB.handleText h2
      · split at h
        · obtain ⟨L2, h2, h1⟩ := bind_eq_ok.1 h
          injection h1 with h1; injection h1 with _ h1; subst h1
          exact hB
        · obtain ⟨L2, h2, h⟩ := bind_eq_ok.1 h
          obtain ⟨nd, _, h⟩ := bind_eq_ok.1 h
          exact ih.traverse _ _ _ _ _ _ hB h
        · obtain ⟨L2, h2, h⟩ := bind_eq_ok.1 h
          exact ih.handle _ _ _ _ _ _ _ _ hB h
    · intro st o i id L B L' B' hB h
      simp only [handleElement] at h
      rw [withSlots_eq_ok] at h
      split at h
      · split at h
        · obtain ⟨nd, _, h⟩ := bind_eq_ok.1 h
          obtain ⟨⟨L1, B1⟩, h1, h⟩ := bind_eq_ok.1 h
          obtain ⟨⟨box, B2⟩, h2, h⟩ := bind_eq_ok.1 h
          injection h with h; injection h with _ h; subst h
          exact (ih.traverse _ _ _ _ _ _ (hB.openInline st) h1).closeInline h2
        · cases h
      · split at h
        · split at h
          · injection h with h; injection h with _ h; subst h
            exact hB.push' trivial rfl
          · obtain ⟨⟨c, fl, L1⟩, h1, h⟩ := bind_eq_ok.1 h
            injection h with h; injection h with _ h; subst h
            obtain ⟨hc, hf⟩ := ih.container _ _ _ _ _ _ h1
            exact hB.setCurrent' (inlineMarked_append.2 ⟨hB.current, ⟨hf, hc⟩, trivial⟩)
              (by simp [inlineFloats_append, inlineFloats, InlineLevelBox.floats])
        · split at h
          · split at h
            · injection h with h; injection h with _ h; subst h
              have := hB.push (slot := some id) (b := .outOfFlowFloatBox st id) trivial
              simpa [IntermediateBox.floats] using this
            · obtain ⟨⟨c, fl, L1⟩, h1, h⟩ := bind_eq_ok.1 h
              injection h with h; injection h with _ h; subst h
              obtain ⟨hc, hf⟩ := ih.container _ _ _ _ _ _ h1
              have hm : inlineMarked (B.current ++ [.outOfFlowFloatBox st (.mk c fl)]) :=
                inlineMarked_append.2 ⟨hB.current, ⟨hf, hc⟩, trivial⟩
              have := hB.setCurrent hm (fl := true)
                (by simp [inlineFloats_append, inlineFloats, InlineLevelBox.floats])
              simpa [Builder.current] using this
          · obtain ⟨B2, h2, h⟩ := bind_eq_ok.1 h
            injection h with h; injection h with _ h; subst h
            exact hB.handleBlockLevel h2
    · intro st id L c fl L' h
      simp only [constructContainer] at h
      obtain ⟨nd, _, h⟩ := bind_eq_ok.1 h
      obtain ⟨⟨L1, B1⟩, h1, h⟩ := bind_eq_ok.1 h
      obtain ⟨_, hs, h⟩ := bind_eq_ok.1 h
      rw [withSlots_eq_ok] at hs
      have hs : B1.stack = [] := by
        unfold Doc.check at hs
        split at hs
        · simp_all
        · cases hs
      have hB := ih.traverse _ _ _ _ _ _ (Builder.Marked.new st) h1
      have hflag := hB.flag
      simp only [openFloats, hs, List.any_nil, Bool.or_false] at hflag
      split at h
      · rename_i hc
        simp only [Bool.and_eq_true, List.isEmpty_iff] at hc
        injection h with h; injection h with h h'; injection h' with h' _; subst h h'
        refine ⟨hB.inlines, ?_⟩
        rw [hflag, hc.2]
        simp [BlockContainer.floats]
      · have fin : ∀ B2 : Builder, B2.Marked → B2.stack = [] → B2.inlines = [] →
            (do
              let (boxes, floats, L) ← finishBoxes C n B2.blockLevelBoxes L1
              return (.blockLevelBoxes boxes, B2.containsFloats || floats, L) :
                Except Panic (BlockContainer × Bool × LayoutData)) = .ok (c, fl, L') →
            c.marked ∧ fl = c.floats := by
          intro B2 hB2 hs2 hi2 h
          obtain ⟨⟨bs, fl2, L2⟩, h3, h⟩ := bind_eq_ok.1 h
          injection h with h; injection h with h h'; injection h' with h' _; subst h h'
          obtain ⟨h4, h5⟩ := ih.boxes _ _ _ _ _ hB2.blocks h3
          refine ⟨h4, ?_⟩
          have := hB2.flag
          simp only [openFloats, hs2, hi2, List.any_nil, Bool.or_false, inlineFloats] at this
          rw [this, h5]
          rfl
        split at h
        · obtain ⟨B2, h2, h⟩ := bind_eq_ok.1 h
          rw [withSlots_eq_ok] at h2
          refine fin B2 (hB.endOngoing h2) ?_ ?_ h
          · unfold Builder.endOngoing at h2
            simp only [hs, List.isEmpty_nil, Bool.not_true, Bool.false_eq_true, if_false] at h2
            split at h2 <;> injection h2 with h2 <;> subst h2 <;> first | exact hs | rfl
          · unfold Builder.endOngoing at h2
            simp only [hs, List.isEmpty_nil, Bool.not_true, Bool.false_eq_true, if_false] at h2
            split at h2
            · injection h2 with h2; subst h2; simp_all
            · injection h2 with h2; subst h2; rfl
        · rename_i hi
          obtain ⟨B2, h2, h⟩ := bind_eq_ok.1 h
          injection h2 with h2; subst h2
          exact fin B1 hB hs (by simpa using hi) h
    · intro bs L r fl L' hb h
      cases bs with
      | nil =>
        simp only [finishBoxes] at h; injection h with h; injection h with h h'
        injection h' with h' _; subst h h'
        exact ⟨trivial, rfl⟩
      | cons p bs =>
        obtain ⟨b, slot⟩ := p
        simp only [finishBoxes] at h
        obtain ⟨⟨box, f1, L1⟩, h1, h⟩ := bind_eq_ok.1 h
        rw [withSlots_eq_ok] at h1
        obtain ⟨⟨bs', f2, L2⟩, h2, h⟩ := bind_eq_ok.1 h
        injection h with h; injection h with h h'; injection h' with h' _; subst h h'
        obtain ⟨a1, a2⟩ := ih.box _ _ _ _ _ (hb (b, slot) (by simp)) h1
        obtain ⟨b1, b2⟩ := ih.boxes _ _ _ _ _ (fun p hp => hb p (by simp [hp])) h2
        refine ⟨⟨a1, b1⟩, ?_⟩
        simp only [blockFloats, ← a2, ← b2, List.any_cons]
        ac_rfl
    · intro b L r fl L' hb h
      have key : ∀ {α : Type} {st : Style} {id : NodeId} {f : BlockContainer × Bool × LayoutData → Except Panic α}
          {r : α}, (constructContainer C n st id L >>= f) = .ok r →
          ∃ c fl L', (BlockContainer.marked c ∧ fl = c.floats) ∧ f (c, fl, L') = .ok r := by
        intro α st id f r h
        obtain ⟨⟨c, f1, L1⟩, h1, h⟩ := bind_eq_ok.1 h
        exact ⟨c, f1, L1, ih.container _ _ _ _ _ _ h1, h⟩
      cases b with
      | sameFormattingContextBlock st c =>
        cases c with
        | inlineFormattingContext st' bs =>
          simp only [finishBox] at h
          injection h with h; injection h with h h'; injection h' with h' _; subst h h'
          exact ⟨hb, by simp [IntermediateBox.floats, BlockLevelBox.floats, BlockContainer.floats]⟩
        | deferred id =>
          simp only [finishBox] at h
          obtain ⟨c, _, _, ⟨h1, h2⟩, h⟩ := key h
          injection h with h; injection h with h h'; injection h' with h' _; subst h h'
          exact ⟨h1, by simp [IntermediateBox.floats, BlockLevelBox.floats, h2]⟩
      | independent st id | outOfFlowAbsolutelyPositionedBox st id | outOfFlowFloatBox st id =>
        simp only [finishBox] at h
        obtain ⟨c, _, _, ⟨h1, h2⟩, h⟩ := key h
        injection h with h; injection h with h h'; injection h' with h' _; subst h h'
        exact ⟨⟨h2, h1⟩, rfl⟩

theorem boxTree_marked {C : BoxContext} {n : Nat} {root : Bfc}
    (h : boxTree C n = .ok root) : root.marked := by
  unfold boxTree at h
  obtain ⟨id, _, h⟩ := bind_eq_ok.1 h
  obtain ⟨style, _, h⟩ := bind_eq_ok.1 h
  obtain ⟨⟨fl, bs, L⟩, h1, h⟩ := bind_eq_ok.1 h
  injection h with h; subst h
  unfold constructRoot at h1
  split at h1
  · injection h1 with h1; injection h1 with h1 h2; injection h2 with h2 _; subst h1 h2
    exact ⟨rfl, trivial⟩
  · obtain ⟨⟨c, f1, L1⟩, h2, h1⟩ := bind_eq_ok.1 h1
    obtain ⟨a, b⟩ := (markedUpTo C n).container _ _ _ _ _ _ h2
    simp only at h1
    split at h1
    · injection h1 with h1; injection h1 with h1 h2; injection h2 with h2 _; subst h1 h2
      exact ⟨rfl, ⟨b, a⟩, trivial⟩
    · split at h1
      · injection h1 with h1; injection h1 with h1 h2; injection h2 with h2 _; subst h1 h2
        exact ⟨rfl, ⟨b, a⟩, trivial⟩
      · injection h1 with h1; injection h1 with h1 h2; injection h2 with h2 _; subst h1 h2
        exact ⟨rfl, ⟨b, a⟩, trivial⟩

end Sinab
