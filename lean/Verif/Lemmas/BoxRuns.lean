import Verif.Model.Construct
import Verif.Spec.Read
import Verif.Lemmas.ConstructGood

/-! Every text of a box tree has the computed style of an element and the font of this style. -/

namespace Sinab

/-- `c` is a child of `p`: reached from the first child by going to the next sibling -/
inductive Doc.Kid (d : Doc) (p : NodeId) : NodeId → Prop
  | first {n c} : d.get p = .ok n → n.firstChild = some c → d.Kid p c
  | next {n c c'} : d.Kid p c → d.get c = .ok n → n.nextSibling = some c' → d.Kid p c'

/-- The element has this style: what the cascade gives to it, if its parent has the style that the
cascade gives to the parent, and so on. -/
inductive BoxContext.StyleAt (C : BoxContext) : NodeId → Style → Prop
  | root {id st} : C.doc.rootElement C.doc.len = .ok id → C.styleOf id none = .ok st → C.StyleAt id st
  | child {p ps id st} : C.StyleAt p ps → C.doc.Kid p id → C.styleOf id (some ps) = .ok st →
      C.StyleAt id st

/-- the styles of the elements of a document -/
def BoxContext.Styles (C : BoxContext) (st : Style) : Prop := ∃ id, C.StyleAt id st

mutual

/-- all texts of the tree have a style and a font that belong together -/
def BlockContainer.runsOk (P : Style → Font → Prop) : BlockContainer → Prop
  | .blockLevelBoxes boxes => blockRunsOk P boxes
  | .inlineFormattingContext _ boxes => inlineRunsOk P boxes

/-- see `BlockContainer.runsOk` -/
def Bfc.runsOk (P : Style → Font → Prop) : Bfc → Prop
  | .mk c _ => c.runsOk P

/-- see `BlockContainer.runsOk` -/
def BlockLevelBox.runsOk (P : Style → Font → Prop) : BlockLevelBox → Prop
  | .sameFormattingContextBlock _ c => c.runsOk P
  | .outOfFlowAbsolutelyPositionedBox _ c => c.runsOk P
  | .outOfFlowFloatBox _ c => c.runsOk P
  | .independent _ c => c.runsOk P

/-- see `BlockContainer.runsOk` -/
def blockRunsOk (P : Style → Font → Prop) : List BlockLevelBox → Prop
  | [] => True
  | b :: bs => b.runsOk P ∧ blockRunsOk P bs

/-- see `BlockContainer.runsOk` -/
def InlineLevelBox.runsOk (P : Style → Font → Prop) : InlineLevelBox → Prop
  | .inlineBox _ _ _ children => inlineRunsOk P children
  | .textRun st _ f => P st f
  | .outOfFlowAbsolutelyPositionedBox _ c => c.runsOk P
  | .outOfFlowFloatBox _ c => c.runsOk P

/-- see `BlockContainer.runsOk` -/
def inlineRunsOk (P : Style → Font → Prop) : List InlineLevelBox → Prop
  | [] => True
  | b :: bs => b.runsOk P ∧ inlineRunsOk P bs

end

mutual

theorem InlineLevelBox.runsOk_inks {P : Style → Font → Prop} : ∀ b : InlineLevelBox, b.runsOk P →
    ∀ r ∈ b.inks, P r.1 r.2.1
  | .inlineBox _ _ _ ks, h => inlineRunsOk_inked ks h
  | .textRun .., h => by
    intro r hr
    rw [InlineLevelBox.inks, List.mem_singleton] at hr
    subst hr
    exact h
  | .outOfFlowAbsolutelyPositionedBox _ _, _ => by simp [InlineLevelBox.inks]
  | .outOfFlowFloatBox _ _, _ => by simp [InlineLevelBox.inks]

theorem inlineRunsOk_inked {P : Style → Font → Prop} : ∀ bs : List InlineLevelBox, inlineRunsOk P bs →
    ∀ r ∈ inlineInked bs, P r.1 r.2.1
  | [], _ => by simp [inlineInked]
  | b :: bs, h => by
    intro r hr
    rcases List.mem_append.1 hr with hr | hr
    · exact b.runsOk_inks h.1 r hr
    · exact inlineRunsOk_inked bs h.2 r hr

end

/-- a text run with the style of an element and the font for it -/
def BoxContext.Run (C : BoxContext) (st : Style) (f : Font) : Prop := C.Styles st ∧ f = C.fontOf st

variable {P : Style → Font → Prop}

theorem inlineRunsOk_append {a b : List InlineLevelBox} :
    inlineRunsOk P (a ++ b) ↔ inlineRunsOk P a ∧ inlineRunsOk P b := by
  induction a with
  | nil => simp [inlineRunsOk]
  | cons x a ih => simp only [List.cons_append, inlineRunsOk, ih, and_assoc]

theorem inlineRunsOk_dropLast {a : List InlineLevelBox} (h : inlineRunsOk P a) : inlineRunsOk P a.dropLast := by
  rcases List.eq_nil_or_concat a with rfl | ⟨b, x, rfl⟩
  · exact h
  · simp only [List.concat_eq_append] at h ⊢
    rw [List.dropLast_concat]
    exact (inlineRunsOk_append.1 h).1

theorem appendText_runs {C : BoxContext} {st : Style} {t : Text} {a : List InlineLevelBox}
    (hst : C.Styles st) (h : inlineRunsOk C.Run a) : inlineRunsOk C.Run (appendText C st t a) := by
  unfold appendText
  split
  · rename_i st' old f hl
    refine inlineRunsOk_append.2 ⟨inlineRunsOk_dropLast h, ?_, trivial⟩
    rcases List.eq_nil_or_concat a with rfl | ⟨b, x, rfl⟩
    · cases hl
    · simp only [List.concat_eq_append, List.getLast?_concat, Option.some.injEq] at hl h
      subst hl
      exact (inlineRunsOk_append.1 h).2.1
  · exact inlineRunsOk_append.2 ⟨h, ⟨hst, rfl⟩, trivial⟩

/-- boxes that wait to be finished -/
def IntermediateBox.runsOk (C : BoxContext) : IntermediateBox → Prop
  | .sameFormattingContextBlock _ (.inlineFormattingContext _ boxes) => inlineRunsOk C.Run boxes
  | .sameFormattingContextBlock st (.deferred id) => C.StyleAt id st
  | .independent st id => C.StyleAt id st
  | .outOfFlowAbsolutelyPositionedBox st id => C.StyleAt id st
  | .outOfFlowFloatBox st id => C.StyleAt id st

/-- all texts in the builder -/
structure Builder.Runs (C : BoxContext) (B : Builder) : Prop where
  blocks : ∀ p ∈ B.blockLevelBoxes, p.1.runsOk C
  inlines : inlineRunsOk C.Run B.inlines
  stack : ∀ o ∈ B.stack, inlineRunsOk C.Run o.children

namespace Builder.Runs

variable {C : BoxContext} {B : Builder}

theorem current (h : B.Runs C) : inlineRunsOk C.Run B.current := by
  unfold Builder.current
  split
  · rename_i top rest hs
    exact h.stack top (by simp [hs])
  · exact h.inlines

theorem setCurrent (h : B.Runs C) {bs : List InlineLevelBox} (hb : inlineRunsOk C.Run bs) :
    (B.setCurrent bs).Runs C := by
  unfold Builder.setCurrent
  split
  · rename_i top rest hs
    refine ⟨h.blocks, h.inlines, ?_⟩
    intro o ho
    rcases List.mem_cons.1 ho with rfl | ho
    · exact hb
    · exact h.stack o (by simp [hs, ho])
  · exact ⟨h.blocks, hb, h.stack⟩

theorem handleText (h : B.Runs C) {t : Text} {st : Style} (hst : C.Styles st) {B' : Builder}
    (h1 : B.handleText C t st = .ok B') : B'.Runs C := by
  have hc : ∀ t, (B.handleTextCollapse C t st).Runs C := by
    intro t
    unfold Builder.handleTextCollapse
    simp only
    split
    · exact h.setCurrent (appendText_runs hst h.current)
    · exact h
  have hp : ∀ t, (B.handleTextPreserve C t st).Runs C := by
    intro t
    unfold Builder.handleTextPreserve
    split
    · exact h.setCurrent (appendText_runs hst h.current)
    · exact h
  unfold Builder.handleText at h1
  split at h1
  · injection h1 with h1; subst h1; exact hc t
  · injection h1 with h1; subst h1; exact hc t
  · injection h1 with h1; subst h1; exact hp t
  · injection h1 with h1; subst h1; exact hp t
  · cases h1

theorem push (h : B.Runs C) {b : IntermediateBox} {slot : Option NodeId} (hb : b.runsOk C) :
    ({ B with blockLevelBoxes := B.blockLevelBoxes ++ [(b, slot)] } : Builder).Runs C := by
  refine ⟨?_, h.inlines, h.stack⟩
  intro p hp
  rcases List.mem_append.1 hp with hp | hp
  · exact h.blocks p hp
  · rw [List.mem_singleton] at hp
    subst hp
    exact hb

theorem endOngoing (h : B.Runs C) {B' : Builder} (h1 : B.endOngoing = .ok B') : B'.Runs C := by
  unfold Builder.endOngoing at h1
  split at h1
  · cases h1
  · split at h1
    · injection h1 with h1; subst h1; exact h
    · injection h1 with h1
      subst h1
      refine ⟨?_, trivial, h.stack⟩
      intro p hp
      rcases List.mem_append.1 hp with hp | hp
      · exact h.blocks p hp
      · rw [List.mem_singleton] at hp
        subst hp
        exact h.inlines

theorem wrapFragments_runs : ∀ (os : List OpenInline) (inner : InlineLevelBox), inner.runsOk C.Run →
    (∀ o ∈ os, inlineRunsOk C.Run o.children) → (Builder.wrapFragments inner os).runsOk C.Run := by
  intro os
  induction os with
  | nil => intro inner h _; exact h
  | cons o os ih =>
    intro inner h ho
    refine ih _ ?_ (fun o' h' => ho o' (by simp [h']))
    exact inlineRunsOk_append.2 ⟨ho o (by simp), h, trivial⟩

theorem splitInlines (h : B.Runs C) : B.splitInlines.Runs C := by
  unfold Builder.splitInlines
  split
  · exact h
  · rename_i last parents hs
    refine ⟨h.blocks, inlineRunsOk_append.2 ⟨h.inlines, ?_, trivial⟩, ?_⟩
    · exact wrapFragments_runs _ _ (h.stack last (by simp [hs])) (fun o ho => h.stack o (by simp [hs, ho]))
    · intro o ho
      simp only [List.mem_map] at ho
      obtain ⟨o', _, rfl⟩ := ho
      exact trivial

theorem handleBlockLevel (h : B.Runs C) {style : Style} {inside : DisplayInside} {id : NodeId}
    (hst : C.StyleAt id style)
    {slot : Option NodeId} {B' : Builder} (h1 : B.handleBlockLevel style inside id slot = .ok B') :
    B'.Runs C := by
  unfold Builder.handleBlockLevel at h1
  obtain ⟨B1, h2, h1⟩ := bind_eq_ok.1 h1
  injection h1 with h1
  subst h1
  have := h.splitInlines.endOngoing h2
  exact this.push (by cases inside <;> exact hst)

theorem openInline (h : B.Runs C) (style : Style) : (B.openInline style).Runs C := by
  refine ⟨h.blocks, h.inlines, ?_⟩
  intro o ho
  rcases List.mem_cons.1 ho with rfl | ho
  · exact trivial
  · exact h.stack o ho

theorem closeInline (h : B.Runs C) {box : InlineLevelBox} {B' : Builder}
    (h1 : B.closeInline = .ok (box, B')) : B'.Runs C := by
  unfold Builder.closeInline at h1
  split at h1
  · cases h1
  · rename_i top rest hs
    injection h1 with h1
    injection h1 with h1 h2
    subst h1 h2
    have h3 : ({ B with stack := rest } : Builder).Runs C :=
      ⟨h.blocks, h.inlines, fun o ho => h.stack o (by simp [hs, ho])⟩
    exact h3.setCurrent (inlineRunsOk_append.2 ⟨h3.current, h.stack top (by simp [hs]), trivial⟩)

theorem new (style : Style) : (Builder.new style).Runs C :=
  ⟨by simp [Builder.new], trivial, by simp [Builder.new]⟩

end Builder.Runs

/-- the statement for a given fuel -/
structure RunsUpTo (C : BoxContext) (n : Nat) : Prop where
  traverse : ∀ st p id L B L' B', C.StyleAt p st → (∀ c, id = some c → C.doc.Kid p c) → B.Runs C →
    traverse C n st id L B = .ok (L', B') → B'.Runs C
  element : ∀ p id e st L B L' B', C.StyleAt p st → C.doc.Kid p id → B.Runs C →
    traverseElement C n id e st L B = .ok (L', B') → B'.Runs C
  handle : ∀ st o i id L B L' B', C.StyleAt id st → B.Runs C →
    handleElement C n st o i id L B = .ok (L', B') → B'.Runs C
  container : ∀ st id L c fl L', C.StyleAt id st → constructContainer C n st id L = .ok (c, fl, L') →
    c.runsOk C.Run
  boxes : ∀ bs L r fl L', (∀ p ∈ bs, p.1.runsOk C) → finishBoxes C n bs L = .ok (r, fl, L') →
    blockRunsOk C.Run r
  box : ∀ b L r fl L', b.runsOk C → finishBox C n b L = .ok (r, fl, L') → r.runsOk C.Run

theorem runsUpTo {C : BoxContext} : ∀ n, RunsUpTo C n := by
  intro n
  induction n with
  | zero =>
    constructor <;> intros <;> rename_i h <;> simp only [traverse, traverseElement, handleElement,
      constructContainer, finishBoxes, finishBox] at h <;> cases h
  | succ n ih =>
    constructor
    · intro st p id L B L' B' hst hk hB h
      cases id with
      | none => simp only [traverse] at h; injection h with h; injection h with _ h; subst h; exact hB
      | some id =>
        simp only [traverse] at h
        obtain ⟨nd, hn, h⟩ := bind_eq_ok.1 h
        rw [withSlots_eq_ok] at hn
        obtain ⟨⟨L1, B1⟩, h1, h⟩ := bind_eq_ok.1 h
        rw [withSlots_eq_ok] at h1
        refine ih.traverse _ _ _ _ _ _ _ hst (fun c hc => .next (hk _ rfl) hn hc) ?_ h
        split at h1
        · obtain ⟨B2, h2, h1⟩ := bind_eq_ok.1 h1
          injection h1 with h1; injection h1 with _ h1; subst h1
          exact hB.handleText ⟨_, hst⟩ h2
        · exact ih.element _ _ _ _ _ _ _ _ hst (hk _ rfl) hB h1
        · injection h1 with h1; injection h1 with _ h1; subst h1; exact hB
    · intro p id e st L B L' B' hp hk hB h
      simp only [traverseElement] at h
      obtain ⟨style, hs, h⟩ := bind_eq_ok.1 h
      have hst := BoxContext.StyleAt.child hp hk hs
      split at h
      · obtain ⟨B2, h2, h1⟩ := bind_eq_ok.1 h
        injection h1 with h1; injection h1 with _ h1; subst h1
        exact hB.handleText ⟨_, hst⟩ h2
      · split at h
        · obtain ⟨L2, h2, h1⟩ := bind_eq_ok.1 h
          injection h1 with h1; injection h1 with _ h1; subst h1
          exact hB
        · obtain ⟨L2, h2, h⟩ := bind_eq_ok.1 h
          obtain ⟨nd, hn, h⟩ := bind_eq_ok.1 h
          exact ih.traverse _ _ _ _ _ _ _ hst (fun c hc => .first hn hc) hB h
        · rename_i o i hd
          obtain ⟨L2, h2, h⟩ := bind_eq_ok.1 h
          exact ih.handle _ _ _ _ _ _ _ _ hst hB h
    · intro st o i id L B L' B' hst hB h
      simp only [handleElement] at h
      rw [withSlots_eq_ok] at h
      split at h
      · split at h
        · obtain ⟨nd, hn, h⟩ := bind_eq_ok.1 h
          obtain ⟨⟨L1, B1⟩, h1, h⟩ := bind_eq_ok.1 h
          obtain ⟨⟨box, B2⟩, h2, h⟩ := bind_eq_ok.1 h
          injection h with h; injection h with _ h; subst h
          exact (ih.traverse _ _ _ _ _ _ _ hst (fun c hc => .first hn hc) (hB.openInline st) h1).closeInline h2
        · cases h
      · split at h
        · split at h
          · injection h with h; injection h with _ h; subst h
            exact hB.push hst
          · obtain ⟨⟨c, fl, L1⟩, h1, h⟩ := bind_eq_ok.1 h
            injection h with h; injection h with _ h; subst h
            exact hB.setCurrent (inlineRunsOk_append.2 ⟨hB.current, ih.container _ _ _ _ _ _ hst h1,
              trivial⟩)
        · split at h
          · have hB' : ({ B with containsFloats := true } : Builder).Runs C := ⟨hB.1, hB.2, hB.3⟩
            split at h
            · injection h with h; injection h with _ h; subst h
              exact hB'.push hst
            · obtain ⟨⟨c, fl, L1⟩, h1, h⟩ := bind_eq_ok.1 h
              injection h with h; injection h with _ h; subst h
              exact hB'.setCurrent (inlineRunsOk_append.2 ⟨hB'.current, ih.container _ _ _ _ _ _ hst h1,
                trivial⟩)
          · obtain ⟨B2, h2, h⟩ := bind_eq_ok.1 h
            injection h with h; injection h with _ h; subst h
            exact hB.handleBlockLevel hst h2
    · intro st id L c fl L' hst h
      simp only [constructContainer] at h
      obtain ⟨nd, hn, h⟩ := bind_eq_ok.1 h
      obtain ⟨⟨L1, B1⟩, h1, h⟩ := bind_eq_ok.1 h
      obtain ⟨_, _, h⟩ := bind_eq_ok.1 h
      have hB := ih.traverse _ _ _ _ _ _ _ hst (fun c hc => .first hn hc) (Builder.Runs.new st) h1
      split at h
      · injection h with h; injection h with h _; subst h
        exact hB.inlines
      · split at h
        · obtain ⟨B2, h2, h⟩ := bind_eq_ok.1 h
          obtain ⟨⟨bs, fl2, L2⟩, h3, h⟩ := bind_eq_ok.1 h
          injection h with h; injection h with h _; subst h
          rw [withSlots_eq_ok] at h2
          exact ih.boxes _ _ _ _ _ (hB.endOngoing h2).blocks h3
        · obtain ⟨B2, h2, h⟩ := bind_eq_ok.1 h
          obtain ⟨⟨bs, fl2, L2⟩, h3, h⟩ := bind_eq_ok.1 h
          injection h with h; injection h with h _; subst h
          injection h2 with h2; subst h2
          exact ih.boxes _ _ _ _ _ hB.blocks h3
    · intro bs L r fl L' hb h
      cases bs with
      | nil => simp only [finishBoxes] at h; injection h with h; injection h with h _; subst h; trivial
      | cons p bs =>
        obtain ⟨b, slot⟩ := p
        simp only [finishBoxes] at h
        obtain ⟨⟨box, f1, L1⟩, h1, h⟩ := bind_eq_ok.1 h
        rw [withSlots_eq_ok] at h1
        obtain ⟨⟨bs', f2, L2⟩, h2, h⟩ := bind_eq_ok.1 h
        injection h with h; injection h with h _; subst h
        exact ⟨ih.box _ _ _ _ _ (hb (b, slot) (by simp)) h1,
          ih.boxes _ _ _ _ _ (fun p hp => hb p (by simp [hp])) h2⟩
    · intro b L r fl L' hb h
      have key : ∀ {α : Type} {st : Style} {id : NodeId} (_ : C.StyleAt id st) {f : BlockContainer × Bool × LayoutData → Except Panic α}
          {r : α}, (constructContainer C n st id L >>= f) = .ok r →
          ∃ c fl L', BlockContainer.runsOk C.Run c ∧ f (c, fl, L') = .ok r := by
        intro α st id hst f r h
        obtain ⟨⟨c, f1, L1⟩, h1, h⟩ := bind_eq_ok.1 h
        exact ⟨c, f1, L1, ih.container _ _ _ _ _ _ hst h1, h⟩
      cases b with
      | sameFormattingContextBlock st c =>
        cases c with
        | inlineFormattingContext st' bs =>
          simp only [finishBox] at h
          injection h with h; injection h with h _; subst h
          exact hb
        | deferred id =>
          simp only [finishBox] at h
          obtain ⟨c, _, _, h1, h⟩ := key hb h
          injection h with h; injection h with h _; subst h
          exact h1
      | independent st id | outOfFlowAbsolutelyPositionedBox st id | outOfFlowFloatBox st id =>
        simp only [finishBox] at h
        obtain ⟨c, _, _, h1, h⟩ := key hb h
        injection h with h; injection h with h _; subst h
        exact h1

theorem boxTree_runs {C : BoxContext} {n : Nat} {root : Bfc}
    (h : boxTree C n = .ok root) : root.runsOk C.Run := by
  unfold boxTree at h
  obtain ⟨id, hid, h⟩ := bind_eq_ok.1 h
  obtain ⟨style, hs, h⟩ := bind_eq_ok.1 h
  obtain ⟨⟨fl, bs, L⟩, h1, h⟩ := bind_eq_ok.1 h
  injection h with h; subst h
  unfold constructRoot at h1
  split at h1
  · injection h1 with h1; injection h1 with _ h1; injection h1 with h1 _; subst h1; trivial
  · obtain ⟨⟨c, f1, L1⟩, h2, h1⟩ := bind_eq_ok.1 h1
    have := (runsUpTo n).container _ _ _ _ _ _ (.root hid hs) h2
    simp only at h1
    split at h1
    · injection h1 with h1; injection h1 with _ h1; injection h1 with h1 _; subst h1
      exact ⟨this, trivial⟩
    · split at h1
      · injection h1 with h1; injection h1 with _ h1; injection h1 with h1 _; subst h1
        exact ⟨this, trivial⟩
      · injection h1 with h1; injection h1 with _ h1; injection h1 with h1 _; subst h1
        exact ⟨this, trivial⟩

end Sinab
