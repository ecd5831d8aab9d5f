import Verif.Spec.Block
import Verif.Lemmas.ConstructGood
import Verif.Props.Style

/-! Box trees that come from a document can be laid out. -/

namespace Sinab

/-- in the results of the cascade, elements that generate a box were meant to -/
def BoxContext.StyleSound (C : BoxContext) : Prop :=
  ∀ id parent style o i, C.styleOf id parent = .ok style → style.val .display = .generatingBox o i →
    ∃ o i, style.specifiedDisplay = .generatingBox o i

theorem new_specified {parent : Option Style} {m : Option Matching} {o i}
    (h : (Style.new parent m).val .display = .generatingBox o i) :
    ∃ o i, (Style.new parent m).specifiedDisplay = .generatingBox o i := by
  have := C28_specified parent m
  simp only at this
  split at this
  · rw [h] at this; cases this
  · rw [h] at this; cases this
  · rename_i o i hx
    exact ⟨o, i, hx⟩

theorem styleSound_of {S : SelectorEngine} (K : CssColors) (tokenize : AttrTokenizer)
    (ua author : StyleSet S) (d : Doc) (E : TextEnv) :
    (BoxContext.of K tokenize ua author d E).StyleSound := by
  intro id parent style o i h hd
  have hnew : ∃ m, style = Style.new parent m := by
    simp only [BoxContext.of, styleForElement] at h
    obtain ⟨nd, _, h⟩ := bind_eq_ok.1 h
    split at h
    · injection h with h
      exact ⟨none, h.symm⟩
    · obtain ⟨u, _, h⟩ := bind_eq_ok.1 h
      obtain ⟨a, _, h⟩ := bind_eq_ok.1 h
      split at h
      · split at h
        · obtain ⟨b, _, h⟩ := bind_eq_ok.1 h
          injection h with h
          exact ⟨_, h.symm⟩
        · injection h with h
          exact ⟨_, h.symm⟩
      · injection h with h
        exact ⟨_, h.symm⟩
  obtain ⟨m, rfl⟩ := hnew
  exact new_specified hd

theorem inlineSound_append {a b : List InlineLevelBox} :
    inlineSound (a ++ b) ↔ inlineSound a ∧ inlineSound b := by
  induction a with
  | nil => simp [inlineSound]
  | cons x a ih => simp only [List.cons_append, inlineSound, ih, and_assoc]

theorem inlineSound_dropLast {a : List InlineLevelBox} (h : inlineSound a) : inlineSound a.dropLast := by
  rcases List.eq_nil_or_concat a with rfl | ⟨b, x, rfl⟩
  · exact h
  · simp only [List.concat_eq_append] at h ⊢
    rw [List.dropLast_concat]
    exact (inlineSound_append.1 h).1

theorem appendText_sound {C : BoxContext} {st : Style} {t : Text} {a : List InlineLevelBox}
    (h : inlineSound a) : inlineSound (appendText C st t a) := by
  unfold appendText
  split
  · exact inlineSound_append.2 ⟨inlineSound_dropLast h, trivial, trivial⟩
  · exact inlineSound_append.2 ⟨h, trivial, trivial⟩

/-- boxes that wait to be finished -/
def IntermediateBox.sound : IntermediateBox → Prop
  | .sameFormattingContextBlock _ (.inlineFormattingContext _ boxes) => inlineSound boxes
  | _ => True

/-- everything in the builder is sound -/
structure Builder.Sound (B : Builder) : Prop where
  blocks : ∀ p ∈ B.blockLevelBoxes, p.1.sound
  inlines : inlineSound B.inlines
  stack : ∀ o ∈ B.stack, inlineSound o.children

namespace Builder.Sound

variable {B : Builder}

theorem current (h : B.Sound) : inlineSound B.current := by
  unfold Builder.current
  split
  · rename_i top rest hs
    exact h.stack top (by simp [hs])
  · exact h.inlines

theorem setCurrent (h : B.Sound) {bs : List InlineLevelBox} (hb : inlineSound bs) :
    (B.setCurrent bs).Sound := by
  unfold Builder.setCurrent
  split
  · rename_i top rest hs
    refine ⟨h.blocks, h.inlines, ?_⟩
    intro o ho
    rcases List.mem_cons.1 ho with rfl | ho
    · exact hb
    · exact h.stack o (by simp [hs, ho])
  · exact ⟨h.blocks, hb, h.stack⟩

theorem handleText (h : B.Sound) {C : BoxContext} {t : Text} {st : Style} {B' : Builder}
    (h1 : B.handleText C t st = .ok B') : B'.Sound := by
  have hc : ∀ t, (B.handleTextCollapse C t st).Sound := by
    intro t
    unfold Builder.handleTextCollapse
    simp only
    split
    · exact h.setCurrent (appendText_sound h.current)
    · exact h
  have hp : ∀ t, (B.handleTextPreserve C t st).Sound := by
    intro t
    unfold Builder.handleTextPreserve
    split
    · exact h.setCurrent (appendText_sound h.current)
    · exact h
  unfold Builder.handleText at h1
  split at h1
  · injection h1 with h1; subst h1; exact hc t
  · injection h1 with h1; subst h1; exact hc t
  · injection h1 with h1; subst h1; exact hp t
  · injection h1 with h1; subst h1; exact hp t
  · cases h1

theorem push (h : B.Sound) {b : IntermediateBox} {slot : Option NodeId} (hb : b.sound) :
    ({ B with blockLevelBoxes := B.blockLevelBoxes ++ [(b, slot)] } : Builder).Sound := by
  refine ⟨?_, h.inlines, h.stack⟩
  intro p hp
  rcases List.mem_append.1 hp with hp | hp
  · exact h.blocks p hp
  · rw [List.mem_singleton] at hp
    subst hp
    exact hb

theorem endOngoing (h : B.Sound) {B' : Builder} (h1 : B.endOngoing = .ok B') : B'.Sound := by
  unfold Builder.endOngoing at h1
  split at h1
  · cases h1
  · split at h1
    · injection h1 with h1; subst h1; exact h
    · injection h1 with h1
      subst h1
      refine ⟨?_, trivial, h.stack⟩
      intro p hp
      rcases List.mem_append.1 hp with hp | hp
      · exact h.blocks p hp
      · rw [List.mem_singleton] at hp
        subst hp
        exact h.inlines

theorem wrapFragments_sound : ∀ (os : List OpenInline) (inner : InlineLevelBox), inner.sound →
    (∀ o ∈ os, inlineSound o.children) → (Builder.wrapFragments inner os).sound := by
  intro os
  induction os with
  | nil => intro inner h _; exact h
  | cons o os ih =>
    intro inner h ho
    refine ih _ ?_ (fun o' h' => ho o' (by simp [h']))
    exact inlineSound_append.2 ⟨ho o (by simp), h, trivial⟩

theorem splitInlines (h : B.Sound) : B.splitInlines.Sound := by
  unfold Builder.splitInlines
  split
  · exact h
  · rename_i last parents hs
    refine ⟨h.blocks, inlineSound_append.2 ⟨h.inlines, ?_, trivial⟩, ?_⟩
    · exact wrapFragments_sound _ _ (h.stack last (by simp [hs])) (fun o ho => h.stack o (by simp [hs, ho]))
    · intro o ho
      simp only [List.mem_map] at ho
      obtain ⟨o', _, rfl⟩ := ho
      exact trivial

theorem handleBlockLevel (h : B.Sound) {style : Style} {inside : DisplayInside} {id : NodeId}
    {slot : Option NodeId} {B' : Builder} (h1 : B.handleBlockLevel style inside id slot = .ok B') :
    B'.Sound := by
  unfold Builder.handleBlockLevel at h1
  obtain ⟨B1, h2, h1⟩ := bind_eq_ok.1 h1
  injection h1 with h1
  subst h1
  have := h.splitInlines.endOngoing h2
  exact this.push (by cases inside <;> trivial)

theorem openInline (h : B.Sound) (style : Style) : (B.openInline style).Sound := by
  refine ⟨h.blocks, h.inlines, ?_⟩
  intro o ho
  rcases List.mem_cons.1 ho with rfl | ho
  · exact trivial
  · exact h.stack o ho

theorem closeInline (h : B.Sound) {box : InlineLevelBox} {B' : Builder}
    (h1 : B.closeInline = .ok (box, B')) : B'.Sound := by
  unfold Builder.closeInline at h1
  split at h1
  · cases h1
  · rename_i top rest hs
    injection h1 with h1
    injection h1 with h1 h2
    subst h1 h2
    have h3 : ({ B with stack := rest } : Builder).Sound :=
      ⟨h.blocks, h.inlines, fun o ho => h.stack o (by simp [hs, ho])⟩
    exact h3.setCurrent (inlineSound_append.2 ⟨h3.current, h.stack top (by simp [hs]), trivial⟩)

theorem new (style : Style) : (Builder.new style).Sound :=
  ⟨by simp [Builder.new], trivial, by simp [Builder.new]⟩

end Builder.Sound

/-- soundness for a given fuel -/
structure SoundUpTo (C : BoxContext) (n : Nat) : Prop where
  traverse : ∀ st id L B L' B', B.Sound → traverse C n st id L B = .ok (L', B') → B'.Sound
  element : ∀ id e st L B L' B', B.Sound → traverseElement C n id e st L B = .ok (L', B') → B'.Sound
  handle : ∀ st o i id L B L' B', (∃ o i, st.specifiedDisplay = .generatingBox o i) → B.Sound →
    handleElement C n st o i id L B = .ok (L', B') → B'.Sound
  container : ∀ st id L c fl L', constructContainer C n st id L = .ok (c, fl, L') → c.sound
  boxes : ∀ bs L r fl L', (∀ p ∈ bs, p.1.sound) → finishBoxes C n bs L = .ok (r, fl, L') → blockSound r
  box : ∀ b L r fl L', b.sound → finishBox C n b L = .ok (r, fl, L') → r.sound

theorem soundUpTo {C : BoxContext} (hC : C.StyleSound) : ∀ n, SoundUpTo C n := by
  intro n
  induction n with
  | zero =>
    constructor <;> intros <;> rename_i h <;> simp only [traverse, traverseElement, handleElement,
      constructContainer, finishBoxes, finishBox] at h <;> cases h
  | succ n ih =>
    constructor
    · intro st id L B L' B' hB h
      cases id with
      | none => simp only [traverse] at h; injection h with h; injection h with _ h; subst h; exact hB
      | some id =>
        simp only [traverse] at h
        obtain ⟨nd, _, h⟩ := bind_eq_ok.1 h
        obtain ⟨⟨L1, B1⟩, h1, h⟩ := bind_eq_ok.1 h
        rw [withSlots_eq_ok] at h1
        refine ih.traverse _ _ _ _ _ _ ?_ h
        split at h1
        · obtain ⟨B2, h2, h1⟩ := bind_eq_ok.1 h1
          injection h1 with h1; injection h1 with _ h1; subst h1
          exact hB.handleText h2
        · exact ih.element _ _ _ _ _ _ _ hB h1
        · injection h1 with h1; injection h1 with _ h1; subst h1; exact hB
    · intro id e st L B L' B' hB h
      simp only [traverseElement] at h
      obtain ⟨style, hst, h⟩ := bind_eq_ok.1 h
      split at h
      · obtain ⟨B2, h2, h1⟩ := bind_eq_ok.1 h
        injection h1 with h1; injection h1 with _ h1; subst h1
        exact hB.handleText h2
      · split at h
        · obtain ⟨L2, h2, h1⟩ := bind_eq_ok.1 h
          injection h1 with h1; injection h1 with _ h1; subst h1
          exact hB
        · obtain ⟨L2, h2, h⟩ := bind_eq_ok.1 h
          obtain ⟨nd, _, h⟩ := bind_eq_ok.1 h
          exact ih.traverse _ _ _ _ _ _ hB h
        · rename_i o i hd
          obtain ⟨L2, h2, h⟩ := bind_eq_ok.1 h
          exact ih.handle _ _ _ _ _ _ _ _ (hC _ _ _ _ _ hst hd) hB h
    · intro st o i id L B L' B' hst hB h
      simp only [handleElement] at h
      rw [withSlots_eq_ok] at h
      split at h
      · split at h
        · obtain ⟨nd, _, h⟩ := bind_eq_ok.1 h
          obtain ⟨⟨L1, B1⟩, h1, h⟩ := bind_eq_ok.1 h
          obtain ⟨⟨box, B2⟩, h2, h⟩ := bind_eq_ok.1 h
          injection h with h; injection h with _ h; subst h
          exact (ih.traverse _ _ _ _ _ _ (hB.openInline st) h1).closeInline h2
        · cases h
      · split at h
        · split at h
          · injection h with h; injection h with _ h; subst h
            exact hB.push trivial
          · obtain ⟨⟨c, fl, L1⟩, h1, h⟩ := bind_eq_ok.1 h
            injection h with h; injection h with _ h; subst h
            exact hB.setCurrent (inlineSound_append.2 ⟨hB.current, ⟨hst, ih.container _ _ _ _ _ _ h1⟩,
              trivial⟩)
        · split at h
          · have hB' : ({ B with containsFloats := true } : Builder).Sound := ⟨hB.1, hB.2, hB.3⟩
            split at h
            · injection h with h; injection h with _ h; subst h
              exact hB'.push trivial
            · obtain ⟨⟨c, fl, L1⟩, h1, h⟩ := bind_eq_ok.1 h
              injection h with h; injection h with _ h; subst h
              exact hB'.setCurrent (inlineSound_append.2 ⟨hB'.current, ih.container _ _ _ _ _ _ h1,
                trivial⟩)
          · obtain ⟨B2, h2, h⟩ := bind_eq_ok.1 h
            injection h with h; injection h with _ h; subst h
            exact hB.handleBlockLevel h2
    · intro st id L c fl L' h
      simp only [constructContainer] at h
      obtain ⟨nd, _, h⟩ := bind_eq_ok.1 h
      obtain ⟨⟨L1, B1⟩, h1, h⟩ := bind_eq_ok.1 h
      obtain ⟨_, _, h⟩ := bind_eq_ok.1 h
      have hB := ih.traverse _ _ _ _ _ _ (Builder.Sound.new st) h1
      split at h
      · injection h with h; injection h with h _; subst h
        exact hB.inlines
      · split at h
        · obtain ⟨B2, h2, h⟩ := bind_eq_ok.1 h
          obtain ⟨⟨bs, fl2, L2⟩, h3, h⟩ := bind_eq_ok.1 h
          injection h with h; injection h with h _; subst h
          rw [withSlots_eq_ok] at h2
          exact ih.boxes _ _ _ _ _ (hB.endOngoing h2).blocks h3
        · obtain ⟨B2, h2, h⟩ := bind_eq_ok.1 h
          obtain ⟨⟨bs, fl2, L2⟩, h3, h⟩ := bind_eq_ok.1 h
          injection h with h; injection h with h _; subst h
          injection h2 with h2; subst h2
          exact ih.boxes _ _ _ _ _ hB.blocks h3
    · intro bs L r fl L' hb h
      cases bs with
      | nil => simp only [finishBoxes] at h; injection h with h; injection h with h _; subst h; trivial
      | cons p bs =>
        obtain ⟨b, slot⟩ := p
        simp only [finishBoxes] at h
        obtain ⟨⟨box, f1, L1⟩, h1, h⟩ := bind_eq_ok.1 h
        rw [withSlots_eq_ok] at h1
        obtain ⟨⟨bs', f2, L2⟩, h2, h⟩ := bind_eq_ok.1 h
        injection h with h; injection h with h _; subst h
        exact ⟨ih.box _ _ _ _ _ (hb (b, slot) (by simp)) h1,
          ih.boxes _ _ _ _ _ (fun p hp => hb p (by simp [hp])) h2⟩
    · intro b L r fl L' hb h
      have key : ∀ {α : Type} {st : Style} {id : NodeId} {f : BlockContainer × Bool × LayoutData → Except Panic α}
          {r : α}, (constructContainer C n st id L >>= f) = .ok r →
          ∃ c fl L', BlockContainer.sound c ∧ f (c, fl, L') = .ok r := by
        intro α st id f r h
        obtain ⟨⟨c, f1, L1⟩, h1, h⟩ := bind_eq_ok.1 h
        exact ⟨c, f1, L1, ih.container _ _ _ _ _ _ h1, h⟩
      cases b with
      | sameFormattingContextBlock st c =>
        cases c with
        | inlineFormattingContext st' bs =>
          simp only [finishBox] at h
          injection h with h; injection h with h _; subst h
          exact hb
        | deferred id =>
          simp only [finishBox] at h
          obtain ⟨c, _, _, h1, h⟩ := key h
          injection h with h; injection h with h _; subst h
          exact h1
      | independent st id | outOfFlowAbsolutelyPositionedBox st id | outOfFlowFloatBox st id =>
        simp only [finishBox] at h
        obtain ⟨c, _, _, h1, h⟩ := key h
        injection h with h; injection h with h _; subst h
        exact h1

theorem boxTree_sound {C : BoxContext} (hC : C.StyleSound) {n : Nat} {root : Bfc}
    (h : boxTree C n = .ok root) : root.sound := by
  unfold boxTree at h
  obtain ⟨id, _, h⟩ := bind_eq_ok.1 h
  obtain ⟨style, _, h⟩ := bind_eq_ok.1 h
  obtain ⟨⟨fl, bs, L⟩, h1, h⟩ := bind_eq_ok.1 h
  injection h with h; subst h
  unfold constructRoot at h1
  split at h1
  · injection h1 with h1; injection h1 with _ h1; injection h1 with h1 _; subst h1; trivial
  · obtain ⟨⟨c, f1, L1⟩, h2, h1⟩ := bind_eq_ok.1 h1
    have := (soundUpTo hC n).container _ _ _ _ _ _ h2
    simp only at h1
    split at h1
    · injection h1 with h1; injection h1 with _ h1; injection h1 with h1 _; subst h1
      exact ⟨this, trivial⟩
    · split at h1
      · injection h1 with h1; injection h1 with _ h1; injection h1 with h1 _; subst h1
        exact ⟨this, trivial⟩
      · injection h1 with h1; injection h1 with _ h1; injection h1 with h1 _; subst h1
        exact ⟨this, trivial⟩

end Sinab
