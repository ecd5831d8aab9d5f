import Verif.Spec.SpannedContent
import Verif.Lemmas.PrunedContent
import Verif.Lemmas.Spanned

/-! Boxes of a document in which some words are put in a plain inline element (C96). -/

namespace Sinab

open Sinab.Append

variable {E : TextEnv}

theorem Style.SameText.refl (s : Style) : s.SameText s := ⟨rfl, rfl, rfl, rfl⟩

mutual

theorem Spanned.refl : ∀ c : BlockContainer, Spanned E c c
  | .blockLevelBoxes bs => .blocks _ _ (SpannedBlocks.refl bs)
  | .inlineFormattingContext _ bs => .inlines _ _ _ (SpannedInlines.refl _ bs)

theorem SpannedBlock.refl : ∀ b : BlockLevelBox, SpannedBlock E b b
  | .sameFormattingContextBlock _ c => .same _ _ _ (Spanned.refl c)
  | .independent _ (.mk c _) => .independent _ _ _ _ _ (Spanned.refl c)
  | .outOfFlowAbsolutelyPositionedBox _ (.mk c _) => .absolute _ _ _ _ _ (Spanned.refl c)
  | .outOfFlowFloatBox _ (.mk c _) => .float _ _ _ _ _ (Spanned.refl c)

theorem SpannedBlocks.refl : ∀ bs : List BlockLevelBox, SpannedBlocks E bs bs
  | [] => .nil
  | b :: bs => .cons _ _ _ _ (SpannedBlock.refl b) (SpannedBlocks.refl bs)

theorem SpannedInline.refl : ∀ b : InlineLevelBox, SpannedInline E b b
  | .textRun .. => .text _ _ _ _ (.refl _)
  | .inlineBox _ _ _ ks => .box _ _ _ _ _ (SpannedInlines.refl _ ks)
  | .outOfFlowAbsolutelyPositionedBox _ (.mk c _) => .absolute _ _ _ _ _ (Spanned.refl c)
  | .outOfFlowFloatBox _ (.mk c _) => .float _ _ _ _ _ (Spanned.refl c)

theorem SpannedInlines.refl : ∀ (f : Font) (bs : List InlineLevelBox), SpannedInlines E f bs bs
  | f, [] => .nil f
  | f, b :: bs => .cons _ _ _ _ _ (SpannedInline.refl b) (SpannedInlines.refl f bs)

end

theorem SpannedBlocks.append : ∀ {a a' b b' : List BlockLevelBox}, SpannedBlocks E a a' → SpannedBlocks E b b' →
    SpannedBlocks E (a ++ b) (a' ++ b')
  | _, _, _, _, .nil, h => h
  | _, _, _, _, .cons _ _ _ _ h hs, h' => .cons _ _ _ _ h (SpannedBlocks.append hs h')

theorem SpannedInlines.append : ∀ {f : Font} {a a' b b' : List InlineLevelBox}, SpannedInlines E f a a' →
    SpannedInlines E f b b' → SpannedInlines E f (a ++ b) (a' ++ b')
  | _, _, _, _, _, .nil _, h => h
  | _, _, _, _, _, .cons _ _ _ _ _ h hs, h' => .cons _ _ _ _ _ h (SpannedInlines.append hs h')
  | _, _, _, _, _, .wrap f w a b X X' Y Y' hw hf hX hY, h' => by
    rw [List.append_assoc]
    exact .wrap f w a b X X' _ _ hw hf hX (SpannedInlines.append hY h')

theorem SpannedBlocks.nil_iff {a a' : List BlockLevelBox} (h : SpannedBlocks E a a') : a = [] ↔ a' = [] := by
  cases h <;> simp

/-! ## Texts that differ in style only -/

/-- equal boxes, or texts that look the same -/
def Recast (b b' : InlineLevelBox) : Prop :=
  b' = b ∨ ∃ s s' t f, b = .textRun s t f ∧ b' = .textRun s' t f ∧ s.SameText s'

theorem Recast.spanned {b b' : InlineLevelBox} (h : Recast b b') : SpannedInline E b b' := by
  rcases h with rfl | ⟨s, s', t, f, rfl, rfl, h⟩
  · exact .refl _
  · exact .text _ _ _ _ h

theorem Recast.same {b b' : InlineLevelBox} (h : Recast b b') : b'.text = b.text ∧ b'.filled = b.filled := by
  rcases h with rfl | ⟨s, s', t, f, rfl, rfl, h⟩ <;> exact ⟨rfl, rfl⟩

theorem recast_spanned {f : Font} {X X' : List InlineLevelBox} (h : List.Forall₂ Recast X X') : SpannedInlines E f X X' := by
  induction h with
  | nil => exact .nil f
  | cons h _ ih => exact .cons _ _ _ _ _ h.spanned ih

theorem recast_text {X X' : List InlineLevelBox} (h : List.Forall₂ Recast X X') :
    inlineText X' = inlineText X ∧ filledAll X' = filledAll X := by
  induction h with
  | nil => exact ⟨rfl, rfl⟩
  | cons h _ ih => exact ⟨by rw [inlineText, inlineText, h.same.1, ih.1], by rw [filledAll, filledAll, h.same.2, ih.2]⟩

theorem recast_append {X X' Y Y' : List InlineLevelBox} (h : List.Forall₂ Recast X X') (h' : List.Forall₂ Recast Y Y') :
    List.Forall₂ Recast (X ++ Y) (X' ++ Y') := by
  induction h with
  | nil => exact h'
  | cons h _ ih => exact .cons h ih

theorem recast_last : ∀ {X X' : List InlineLevelBox}, List.Forall₂ Recast X X' →
    ((∀ s t f, X.getLast? ≠ some (.textRun s t f)) ∧ ∀ s t f, X'.getLast? ≠ some (.textRun s t f)) ∨
    ∃ Z Z' s s' t f, X = Z ++ [.textRun s t f] ∧ X' = Z' ++ [.textRun s' t f] ∧ List.Forall₂ Recast Z Z' ∧ s.SameText s'
  | _, _, .nil => .inl ⟨by simp, by simp⟩
  | b :: X, b' :: X', .cons h hs => by
    rcases recast_last hs with ⟨k, k'⟩ | ⟨Z, Z', s, s', t, f, rfl, rfl, k, k'⟩
    · cases hs with
      | nil =>
        rcases h with rfl | ⟨s, s', t, f, rfl, rfl, h⟩
        · by_cases hb : ∃ s t f, b' = .textRun s t f
          · obtain ⟨s, t, f, rfl⟩ := hb
            exact .inr ⟨[], [], s, s, t, f, rfl, rfl, .nil, .refl _⟩
          · have : ∀ s t f, [b'].getLast? ≠ some (.textRun s t f) := by
              intro s t f e
              simp only [List.getLast?_singleton, Option.some.injEq] at e
              exact hb ⟨s, t, f, e⟩
            exact .inl ⟨this, this⟩
        · exact .inr ⟨[], [], s, s', t, f, rfl, rfl, .nil, h⟩
      | cons h1 h2 =>
        refine .inl ⟨?_, ?_⟩
        · simpa [List.getLast?_cons_cons] using k
        · simpa [List.getLast?_cons_cons] using k'
    · exact .inr ⟨b :: Z, b' :: Z', s, s', t, f, rfl, rfl, .cons h k, k'⟩

theorem addRun_recast {C : BoxContext} {s s' : Style} (hs : s.SameText s') (hf : C.fontOf s = C.fontOf s') (t : Text)
    {X X' : List InlineLevelBox} (h : List.Forall₂ Recast X X') :
    List.Forall₂ Recast (addRun C s t X) (addRun C s' t X') := by
  unfold addRun
  split
  · exact h
  · rcases recast_last h with ⟨k, k'⟩ | ⟨Z, Z', u, u', r, f, rfl, rfl, k, k'⟩
    · rcases appendText_cases C s t X with ⟨_, _, _, pre, rfl, _⟩ | ⟨_, e⟩
      · exact absurd List.getLast?_concat (k _ _ _)
      rcases appendText_cases C s' t X' with ⟨_, _, _, pre, rfl, _⟩ | ⟨_, e'⟩
      · exact absurd List.getLast?_concat (k' _ _ _)
      rw [e, e', hf]
      exact recast_append h (.cons (.inr ⟨_, _, _, _, rfl, rfl, hs⟩) .nil)
    · have e : appendText C s t (Z ++ [.textRun u r f]) = Z ++ [.textRun u (r ++ t) f] := by
        unfold appendText; simp
      have e' : appendText C s' t (Z' ++ [.textRun u' r f]) = Z' ++ [.textRun u' (r ++ t) f] := by
        unfold appendText; simp
      rw [e, e']
      exact recast_append k (.cons (.inr ⟨_, _, _, _, rfl, rfl, k'⟩) .nil)

theorem addRun_behind (C : BoxContext) (s : Style) (t : Text) (P : List InlineLevelBox) {X : List InlineLevelBox}
    (hX : X ≠ []) : addRun C s t (P ++ X) = P ++ addRun C s t X := by
  unfold addRun
  split
  · rfl
  · unfold appendText
    rw [List.getLast?_append_of_ne_nil _ hX]
    split
    · rename_i s0 old f0 e
      obtain ⟨pre, rfl⟩ := List.getLast?_eq_some_iff.1 e
      rw [← List.append_assoc]
      simp
    · simp

theorem addRun_fresh (C : BoxContext) (s : Style) {t : Text} (ht : t ≠ []) {P : List InlineLevelBox}
    (hP : ∀ s t f, P.getLast? ≠ some (.textRun s t f)) : addRun C s t P = P ++ [.textRun s t (C.fontOf s)] := by
  unfold addRun
  rw [if_neg ht]
  rcases appendText_cases C s t P with ⟨_, _, _, pre, rfl, _⟩ | ⟨_, e⟩
  · exact absurd List.getLast?_concat (hP _ _ _)
  · exact e

theorem SameText.keeps {s s' : Style} (h : s.SameText s') : s'.keepsSpace = s.keepsSpace := by
  unfold Style.keepsSpace
  rw [h.whiteSpace]

/-! ## Elements -/

mutual

theorem put_boxes (C : BoxContext) (cst : Style) : ∀ (x : Styled) (f : Flow), x.inlineOnly = true →
    boxesOf (x.put C cst true f) = boxesOf f
  | .other, f, _ => rfl
  | .hidden id, f, _ => rfl
  | .text st t, f, _ => rfl
  | .contents id ks, f, h => by
    rw [Styled.put]
    exact putAll_boxes C cst ks _ h
  | .elem id st .inline ins ks, f, h => by
    simp only [Styled.put]
    exact putAll_boxes C cst ks ((({ f with inl := [] } : Flow).note id ⟨none, true⟩).claim id) h
  | .elem id st .block ins ks, f, h => by
    simp only [Styled.inlineOnly, Style.outOfFlow, Bool.or_eq_true] at h
    simp only [Styled.put, Bool.true_or, if_true]
    split
    · rfl
    · rename_i h1
      rw [if_pos (h.resolve_left h1)]
      rfl

theorem putAll_boxes (C : BoxContext) (cst : Style) : ∀ (xs : List Styled) (f : Flow), inlineOnlyAll xs = true →
    boxesOf (putAll C cst true xs f) = boxesOf f
  | [], f, _ => rfl
  | x :: xs, f, h => by
    simp only [inlineOnlyAll, Bool.and_eq_true] at h
    rw [putAll, putAll_boxes C cst xs _ h.2, put_boxes C cst x f h.1]

end

mutual

theorem put_filled (C : BoxContext) (cst : Style) : ∀ (x : Styled) (i : Bool) (f : Flow), filledAll f.inl = true →
    filledAll (x.put C cst i f).inl = true
  | .other, i, f, h => h
  | .hidden id, i, f, h => h
  | .text st t, i, f, h => textInto_filled C st t h
  | .contents id ks, i, f, h => by
    rw [Styled.put]
    exact putAll_filled C cst ks i _ h
  | .elem id st .inline ins ks, i, f, h => by
    have := putAll_filled C cst ks true ((({ f with inl := [] } : Flow).note id ⟨none, true⟩).claim id) rfl
    simp only [Styled.put, Flow.note] at this ⊢
    rw [filledAll_append, h]
    simp [filledAll, InlineLevelBox.filled, this]
  | .elem id st .block ins ks, i, f, h => by
    have nn : ∀ b : InlineLevelBox, b.filled = true → filledAll (f.inl ++ [b]) = true := by
      intro b hb
      simp [filledAll_append, filledAll, h, hb]
    simp only [Styled.put]
    split
    · split
      · exact nn _ rfl
      · exact h
    · split
      · split
        · exact nn _ rfl
        · exact h
      · split
        · have := flush_inl cst ((f.note id ⟨none, true⟩).claim id)
          simp only [Flow.pushBlk, this, filledAll]
        · have := flush_inl cst ((f.note id ⟨none, true⟩).claim id)
          simp only [Flow.pushBlk, this, filledAll]

theorem putAll_filled (C : BoxContext) (cst : Style) : ∀ (xs : List Styled) (i : Bool) (f : Flow), filledAll f.inl = true →
    filledAll (putAll C cst i xs f).inl = true
  | [], i, f, h => h
  | x :: xs, i, f, h => putAll_filled C cst xs i _ (put_filled C cst x i f h)

end

/-- not a text -/
def InlineLevelBox.notText : InlineLevelBox → Bool
  | .textRun .. => false
  | _ => true

theorem put_inlineBoxes (C : BoxContext) (cst : Style) (id : NodeId) (s : Style) (ins : DisplayInside) (ks : List Styled) :
    ∃ D : List BlockLevelBox, D = boxesOf (putAll C cst true ks Flow.empty) ∧ ∀ i f,
      ((Styled.elem id s .inline ins ks).put C cst i f).inl =
        f.inl ++ [.inlineBox s true true (putAll C cst true ks Flow.empty).inl] ∧
      boxesOf ((Styled.elem id s .inline ins ks).put C cst i f) = boxesOf f ++ D := by
  refine ⟨boxesOf (putAll C cst true ks Flow.empty), rfl, fun i f => ?_⟩
  obtain ⟨D, u1, u2, u3⟩ := putAll_uniform C cst ks true Flow.empty
    ((({ f with inl := [] } : Flow).note id ⟨none, true⟩).claim id) rfl
  have e : boxesOf (putAll C cst true ks Flow.empty) = D := u1
  refine ⟨?_, ?_⟩
  · simp only [Styled.put, Flow.note] at u3 ⊢
    rw [u3]
  · rw [e]
    exact u2

theorem put_inlineElem (C : BoxContext) (cst : Style) (id : NodeId) (s : Style) (ins : DisplayInside) (ks : List Styled) :
    ∃ D : List BlockLevelBox, (inlineOnlyAll ks = true → D = []) ∧ ∀ i f,
      ((Styled.elem id s .inline ins ks).put C cst i f).inl =
        f.inl ++ [.inlineBox s true true (putAll C cst true ks Flow.empty).inl] ∧
      boxesOf ((Styled.elem id s .inline ins ks).put C cst i f) = boxesOf f ++ D := by
  obtain ⟨D, rfl, h⟩ := put_inlineBoxes C cst id s ins ks
  exact ⟨_, fun k => putAll_boxes C cst ks _ k, h⟩

/-- the box of an element that is out of flow, in a line -/
def liftedInline (C : BoxContext) (s : Style) (ks : List Styled) : InlineLevelBox :=
  if (s.val .position).isAbsolutelyPositioned then
    .outOfFlowAbsolutelyPositionedBox s (.mk (containerOf C s ks).1 (containerOf C s ks).2.1)
  else .outOfFlowFloatBox s (.mk (containerOf C s ks).1 (containerOf C s ks).2.1)

/-- the box of an element that is out of flow, between blocks -/
def liftedBlock (C : BoxContext) (s : Style) (ks : List Styled) : BlockLevelBox :=
  if (s.val .position).isAbsolutelyPositioned then
    .outOfFlowAbsolutelyPositionedBox s (.mk (containerOf C s ks).1 (containerOf C s ks).2.1)
  else .outOfFlowFloatBox s (.mk (containerOf C s ks).1 (containerOf C s ks).2.1)

theorem liftedInline_facts (C : BoxContext) (s : Style) (ks : List Styled) :
    (liftedInline C s ks).notText = true ∧ (liftedInline C s ks).filled = true ∧ (liftedInline C s ks).text = [] := by
  unfold liftedInline
  split <;> exact ⟨rfl, rfl, rfl⟩

theorem liftedInline_spanned (C : BoxContext) (s : Style) {ks ks' : List Styled}
    (h : Spanned E (containerOf C s ks).1 (containerOf C s ks').1) :
    SpannedInline E (liftedInline C s ks) (liftedInline C s ks') ∧
      SpannedBlock E (liftedBlock C s ks) (liftedBlock C s ks') := by
  unfold liftedInline liftedBlock
  split
  · exact ⟨.absolute _ _ _ _ _ h, .absolute _ _ _ _ _ h⟩
  · exact ⟨.float _ _ _ _ _ h, .float _ _ _ _ _ h⟩

theorem put_liftedElem (C : BoxContext) (cst : Style) (id : NodeId) (s : Style) (ins : DisplayInside) (ks : List Styled)
    (ho : s.outOfFlow = true) (i : Bool) (f : Flow) :
    ((i = true ∨ f.inl ≠ []) → ((Styled.elem id s .block ins ks).put C cst i f).inl = f.inl ++ [liftedInline C s ks] ∧
      boxesOf ((Styled.elem id s .block ins ks).put C cst i f) = boxesOf f) ∧
    (i = false → f.inl = [] → ((Styled.elem id s .block ins ks).put C cst i f).inl = [] ∧
      boxesOf ((Styled.elem id s .block ins ks).put C cst i f) = boxesOf f ++ [liftedBlock C s ks]) := by
  have hi : ((f.note id ⟨none, true⟩).claim id).inl = f.inl := rfl
  simp only [Style.outOfFlow, Bool.or_eq_true] at ho
  refine ⟨fun h => ?_, fun h hf => ?_⟩
  · have hb : (i || !((f.note id ⟨none, true⟩).claim id).inl.isEmpty) = true := by
      rw [hi]
      rcases h with h | h
      · simp [h]
      · simp [h]
    simp only [Styled.put]
    unfold liftedInline
    by_cases hp : (s.val .position).isAbsolutelyPositioned = true
    · rw [if_pos hp, if_pos hb, if_pos hp]
      exact ⟨rfl, rfl⟩
    · rw [if_neg hp, if_pos (ho.resolve_left hp), if_pos hb, if_neg hp]
      exact ⟨rfl, rfl⟩
  · have hb : ¬ (i || !((f.note id ⟨none, true⟩).claim id).inl.isEmpty) = true := by
      rw [hi, h, hf]
      simp
    simp only [Styled.put]
    unfold liftedBlock
    by_cases hp : (s.val .position).isAbsolutelyPositioned = true
    · rw [if_pos hp, if_neg hb, if_pos hp]
      exact ⟨hf, by rw [boxesOf_pushBlk]; rfl⟩
    · rw [if_neg hp, if_pos (ho.resolve_left hp), if_neg hb, if_neg hp]
      exact ⟨hf, by rw [boxesOf_pushBlk]; rfl⟩

/-! ## Two builders -/

/-- inline content and the same content with boxes around some of it -/
structure InlW (E : TextEnv) (fnt : Font) (l l' : List InlineLevelBox) : Prop where
  spanned : SpannedInlines E fnt l l'
  text : inlineText l' = inlineText l
  filled : filledAll l = true
  filled' : filledAll l' = true
  empty : l = [] ↔ l' = []

/-- see `InlW`; both end in the same way -/
def InlS (E : TextEnv) (fnt : Font) (l l' : List InlineLevelBox) : Prop :=
  ∃ U U' Z, l = U ++ Z ∧ l' = U' ++ Z ∧ InlW E fnt U U' ∧ filledAll Z = true ∧
    (Z ≠ [] ∨ ((∀ s t f, U.getLast? ≠ some (.textRun s t f)) ∧ ∀ s t f, U'.getLast? ≠ some (.textRun s t f)))

theorem InlW.append {fnt : Font} {a a' b b' : List InlineLevelBox} (h : InlW E fnt a a') (h' : InlW E fnt b b') :
    InlW E fnt (a ++ b) (a' ++ b') where
  spanned := h.spanned.append h'.spanned
  text := by rw [inlineText_append, inlineText_append, h.text, h'.text]
  filled := by rw [filledAll_append, h.filled, h'.filled]; rfl
  filled' := by rw [filledAll_append, h.filled', h'.filled']; rfl
  empty := by simp [h.empty, h'.empty]

theorem InlW.refl {fnt : Font} {l : List InlineLevelBox} (h : filledAll l = true) : InlW E fnt l l :=
  ⟨.refl _ _, rfl, h, h, Iff.rfl⟩

theorem InlS.weak {fnt : Font} {l l' : List InlineLevelBox} (h : InlS E fnt l l') : InlW E fnt l l' := by
  obtain ⟨U, U', Z, rfl, rfl, h, hZ, -⟩ := h
  exact h.append (.refl hZ)

theorem InlS.refl {fnt : Font} {l : List InlineLevelBox} (h : filledAll l = true) : InlS E fnt l l :=
  ⟨[], [], l, rfl, rfl, .refl rfl, h, .inr ⟨by simp, by simp⟩⟩

theorem InlW.push {fnt : Font} {l l' : List InlineLevelBox} (h : InlW E fnt l l') {b : InlineLevelBox} (hb : b.filled = true) :
    InlS E fnt (l ++ [b]) (l' ++ [b]) :=
  ⟨l, l', [b], rfl, rfl, h, by simp [filledAll, hb], .inl (by simp)⟩

theorem notText_last {l : List InlineLevelBox} {b : InlineLevelBox} (hb : b.notText = true) :
    ∀ s t f, (l ++ [b]).getLast? ≠ some (.textRun s t f) := by
  intro s t f e
  rw [List.getLast?_concat] at e
  cases e
  cases hb

theorem InlW.push₂ {fnt : Font} {l l' : List InlineLevelBox} (h : InlW E fnt l l') {b b' : InlineLevelBox}
    (hs : SpannedInline E b b') (ht : b'.text = b.text) (hb : b.filled = true) (hb' : b'.filled = true)
    (n : b.notText = true) (n' : b'.notText = true) : InlS E fnt (l ++ [b]) (l' ++ [b']) := by
  refine ⟨l ++ [b], l' ++ [b'], [], by simp, by simp, h.append ⟨?_, ?_, ?_, ?_, by simp⟩, rfl,
    .inr ⟨notText_last n, notText_last n'⟩⟩
  · exact .cons _ _ _ _ _ hs (.nil _)
  · simp [inlineText, ht]
  · simp [filledAll, hb]
  · simp [filledAll, hb']

theorem InlS.textInto {fnt : Font} {l l' : List InlineLevelBox} (h : InlS E fnt l l') (C : BoxContext) (s : Style) (t : Text) :
    InlS E fnt (textInto C s t l) (textInto C s t l') := by
  have hw := h.weak
  rw [textInto_eq C s t hw.filled, textInto_eq C s t hw.filled', hw.text]
  generalize contribution s (inlineText l) t = u
  obtain ⟨U, U', Z, rfl, rfl, h, hZ, he⟩ := h
  by_cases hZ0 : Z = []
  · subst hZ0
    obtain ⟨k, k'⟩ := he.resolve_left (fun h => h rfl)
    rw [List.append_nil, List.append_nil]
    by_cases hu : u = []
    · unfold addRun
      rw [if_pos hu, if_pos hu]
      exact ⟨U, U', [], by simp, by simp, h, rfl, .inr ⟨k, k'⟩⟩
    · rw [addRun_fresh C s hu k, addRun_fresh C s hu k']
      exact h.push (by simpa [InlineLevelBox.filled] using hu)
  · rw [addRun_behind C s u U hZ0, addRun_behind C s u U' hZ0]
    exact ⟨U, U', _, rfl, rfl, h, addRun_filled C s u hZ, .inl ((addRun_ne C s u Z).1 hZ0)⟩

/-- two builders -/
structure FlowW (E : TextEnv) (fnt : Font) (f f' : Flow) : Prop where
  inl : InlW E fnt f.inl f'.inl
  blocks : SpannedBlocks E (boxesOf f) (boxesOf f')

/-- see `FlowW` -/
structure FlowS (E : TextEnv) (fnt : Font) (f f' : Flow) : Prop where
  inl : InlS E fnt f.inl f'.inl
  blocks : SpannedBlocks E (boxesOf f) (boxesOf f')

theorem FlowS.weak {fnt : Font} {f f' : Flow} (h : FlowS E fnt f f') : FlowW E fnt f f' := ⟨h.inl.weak, h.blocks⟩

theorem InlW.anon {cst : Style} {l l' : List InlineLevelBox} (h : InlW E (E.font cst) l l') :
    SpannedBlocks E (if l = [] then [] else [anonBox cst l]) (if l' = [] then [] else [anonBox cst l']) := by
  by_cases hl : l = []
  · rw [if_pos hl, if_pos (h.empty.1 hl)]
    exact .nil
  · rw [if_neg hl, if_neg (fun k => hl (h.empty.2 k))]
    exact .cons _ _ _ _ (.same _ _ _ (.inlines _ _ _ h.spanned)) .nil

theorem FlowW.container {cst : Style} {f f' : Flow} (h : FlowW E (E.font cst) f f') :
    Spanned E (f.container cst).1 (f'.container cst).1 := by
  have e : (f'.inl ≠ [] ∧ boxesOf f' = []) ↔ (f.inl ≠ [] ∧ boxesOf f = []) := by
    rw [← h.blocks.nil_iff, ne_eq, ne_eq, ← h.inl.empty]
  rw [container_eq, container_eq]
  by_cases hc : f.inl ≠ [] ∧ boxesOf f = []
  · rw [if_pos hc, if_pos (e.2 hc)]
    exact .inlines _ _ _ h.inl.spanned
  · rw [if_neg hc, if_neg (fun k => hc (e.1 k))]
    exact .blocks _ _ (h.blocks.append h.inl.anon)

/-- an element is added -/
theorem FlowW.put_elem {fnt : Font} {f f' : Flow} (h : FlowW E fnt f f') (C : BoxContext) {cst : Style} {i : Bool} {x : Styled}
    (hx : x.isElem = true) (hf : i = false → fnt = E.font cst) (hi : i = true → x.inlineOnly = true) :
    FlowS E fnt (x.put C cst i f) (x.put C cst i f') := by
  cases x with
  | other => cases hx
  | hidden _ => cases hx
  | text _ _ => cases hx
  | contents _ _ => cases hx
  | elem id s o ins ks =>
    cases o with
    | inline =>
      obtain ⟨D, -, hD⟩ := put_inlineElem C cst id s ins ks
      refine ⟨?_, ?_⟩
      · rw [(hD i f).1, (hD i f').1]
        exact h.inl.push (by simpa [InlineLevelBox.filled] using putAll_filled C cst ks true Flow.empty rfl)
      · rw [(hD i f).2, (hD i f').2]
        exact h.blocks.append (.refl _)
    | block =>
      by_cases ho : s.outOfFlow = true
      · obtain ⟨p1, p2⟩ := put_liftedElem C cst id s ins ks ho i f
        obtain ⟨q1, q2⟩ := put_liftedElem C cst id s ins ks ho i f'
        by_cases hc : i = true ∨ f.inl ≠ []
        · have hc' : i = true ∨ f'.inl ≠ [] := hc.imp_right fun k k' => k (h.inl.empty.2 k')
          refine ⟨?_, ?_⟩
          · rw [(p1 hc).1, (q1 hc').1]
            exact h.inl.push (liftedInline_facts C s ks).2.1
          · rw [(p1 hc).2, (q1 hc').2]
            exact h.blocks
        · simp only [not_or, Bool.not_eq_true, not_not] at hc
          have hc' := h.inl.empty.1 hc.2
          refine ⟨?_, ?_⟩
          · rw [(p2 hc.1 hc.2).1, (q2 hc.1 hc').1]
            exact .refl rfl
          · rw [(p2 hc.1 hc.2).2, (q2 hc.1 hc').2]
            exact h.blocks.append (.refl _)
      · cases i with
        | true => exact absurd (hi rfl) ho
        | false =>
          simp only [Bool.not_eq_true] at ho
          have hfnt := hf rfl
          subst hfnt
          obtain ⟨p1, p2⟩ := put_block C cst (id := id) (ins := ins) (ks := ks) ho f
          obtain ⟨q1, q2⟩ := put_block C cst (id := id) (ins := ins) (ks := ks) ho f'
          refine ⟨?_, ?_⟩
          · rw [p2, q2]
            exact .refl rfl
          · rw [p1, q1]
            exact (h.blocks.append h.inl.anon).append (.refl _)

mutual

theorem put_flowS (C : BoxContext) {cst : Style} {fnt : Font} : ∀ (x : Styled) (i : Bool) (f f' : Flow), FlowS E fnt f f' →
    (i = false → fnt = E.font cst) → (i = true → x.inlineOnly = true) → FlowS E fnt (x.put C cst i f) (x.put C cst i f')
  | .other, i, f, f', h, _, _ => h
  | .hidden id, i, f, f', h, _, _ => ⟨h.inl, h.blocks⟩
  | .text s t, i, f, f', h, _, _ => ⟨h.inl.textInto C s t, h.blocks⟩
  | .contents id ks, i, f, f', h, hf, hi => by
    rw [Styled.put, Styled.put]
    exact putAll_flowS C ks i _ _ ⟨h.inl, h.blocks⟩ hf hi
  | .elem id s o ins ks, i, f, f', h, hf, hi => h.weak.put_elem C rfl hf hi

theorem putAll_flowS (C : BoxContext) {cst : Style} {fnt : Font} : ∀ (xs : List Styled) (i : Bool) (f f' : Flow),
    FlowS E fnt f f' → (i = false → fnt = E.font cst) → (i = true → inlineOnlyAll xs = true) →
    FlowS E fnt (putAll C cst i xs f) (putAll C cst i xs f')
  | [], i, f, f', h, _, _ => h
  | x :: xs, i, f, f', h, hf, hi => by
    simp only [inlineOnlyAll, Bool.and_eq_true] at hi
    exact putAll_flowS C xs i _ _ (put_flowS C x i f f' h hf fun k => (hi k).1) hf fun k => (hi k).2

end

/-! ## Inside of the new element -/

/-- a builder in which `X` was put after `P`, and one in which the same was put in a box of its own -/
structure Inner (f g : Flow) (P X X' : List InlineLevelBox) : Prop where
  left : f.inl = P ++ X
  right : g.inl = X'
  recast : List.Forall₂ Recast X X'
  ne : X ≠ []
  text : P = [] ∨ inlineText X ≠ []
  filled : filledAll P = true
  filledX : filledAll X = true

theorem Inner.push {f g : Flow} {P X X' : List InlineLevelBox} (h : Inner f g P X X') {f1 g1 : Flow} {b : InlineLevelBox}
    (hb : b.filled = true) (h1 : f1.inl = f.inl ++ [b]) (h2 : g1.inl = g.inl ++ [b]) :
    Inner f1 g1 P (X ++ [b]) (X' ++ [b]) where
  left := by rw [h1, h.left, List.append_assoc]
  right := by rw [h2, h.right]
  recast := recast_append h.recast (.cons (.inl rfl) .nil)
  ne := by simp
  text := h.text.imp_right fun k => by rw [inlineText_append]; simp [k]
  filled := h.filled
  filledX := by rw [filledAll_append, h.filledX]; simp [filledAll, hb]

theorem Inner.textInto {f g : Flow} {P X X' : List InlineLevelBox} (h : Inner f g P X X') (C : BoxContext) {s s' : Style}
    (hs : s.SameText s') (hf : C.fontOf s = C.fontOf s') (t : Text) {f1 g1 : Flow}
    (h1 : f1.inl = Sinab.textInto C s t f.inl) (h2 : g1.inl = Sinab.textInto C s' t g.inl) :
    ∃ Y Y', Inner f1 g1 P Y Y' := by
  have hP : filledAll (P ++ X) = true := by rw [filledAll_append, h.filled, h.filledX]; rfl
  have ht := recast_text h.recast
  have hX' : filledAll X' = true := ht.2.trans h.filledX
  have e : contribution s (inlineText (P ++ X)) t = contribution s (inlineText X) t := by
    rcases h.text with k | k
    · rw [k]; rfl
    · unfold contribution
      rw [inlineText_append, atGap_append _ k]
  have e' : contribution s' (inlineText X') t = contribution s (inlineText X) t := by
    unfold contribution
    rw [SameText.keeps hs, ht.1]
  rw [h.left, textInto_eq C s t hP, e, addRun_behind C s _ P h.ne] at h1
  rw [h.right, textInto_eq C s' t hX', e'] at h2
  refine ⟨_, _, h1, h2, addRun_recast hs hf _ h.recast, (addRun_ne C s _ X).1 h.ne, ?_, h.filled, addRun_filled C s _ h.filledX⟩
  refine h.text.imp_right fun k => ?_
  rw [addRun_text]
  simp [k]

theorem Inner.put {w : Style} {C : BoxContext} (hC : C.fontOf = E.font) {x x' : Styled} (hr : Restyled E w x x')
    (hi : x.inlineOnly = true) {f g : Flow} {P X X' : List InlineLevelBox} (h : Inner f g P X X') (cst : Style) (i : Bool) :
    ∃ Y Y', Inner (x.put C cst i f) (x'.put C cst true g) P Y Y' ∧ boxesOf (x.put C cst i f) = boxesOf f ∧
      boxesOf (x'.put C cst true g) = boxesOf g ∧ (x.isElem = true → ∃ Z b, Y = Z ++ [b] ∧ b.notText = true) := by
  cases hr with
  | text s t hs hf =>
    obtain ⟨Y, Y', k⟩ := h.textInto C hs (by rw [hC]; exact hf) t (f1 := (Styled.text s t).put C cst i f)
      (g1 := (Styled.text w t).put C cst true g) rfl rfl
    exact ⟨Y, Y', k, rfl, rfl, fun k => by cases k⟩
  | keep s t =>
    obtain ⟨Y, Y', k⟩ := h.textInto C (.refl s) rfl t (f1 := (Styled.text s t).put C cst i f)
      (g1 := (Styled.text s t).put C cst true g) rfl rfl
    exact ⟨Y, Y', k, rfl, rfl, fun k => by cases k⟩
  | elem id s o ins ks =>
    cases o with
    | inline =>
      obtain ⟨D, hD, hp⟩ := put_inlineElem C cst id s ins ks
      have hD := hD hi
      subst hD
      refine ⟨_, _, h.push ?_ (hp i f).1 (hp true g).1, ?_, ?_, fun _ => ⟨_, _, rfl, rfl⟩⟩
      · simpa [InlineLevelBox.filled] using putAll_filled C cst ks true Flow.empty rfl
      · rw [(hp i f).2, List.append_nil]
      · rw [(hp true g).2, List.append_nil]
    | block =>
      have hne : f.inl ≠ [] := by rw [h.left]; simp [h.ne]
      obtain ⟨p1, p2⟩ := (put_liftedElem C cst id s ins ks hi i f).1 (.inr hne)
      obtain ⟨q1, q2⟩ := (put_liftedElem C cst id s ins ks hi true g).1 (.inl rfl)
      obtain ⟨b1, b2, -⟩ := liftedInline_facts C s ks
      exact ⟨_, _, h.push b2 p1 q1, p2, q2, fun _ => ⟨_, _, rfl, b1⟩⟩

theorem Inner.putAll {w : Style} {C : BoxContext} (hC : C.fontOf = E.font) {L L' : List Styled}
    (hr : List.Forall₂ (Restyled E w) L L') (cst : Style) (i : Bool) : ∀ (hi : inlineOnlyAll L = true) {f g : Flow}
    {P X X' : List InlineLevelBox} (h : Inner f g P X X'),
    ∃ Y Y', Inner (Sinab.putAll C cst i L f) (Sinab.putAll C cst true L' g) P Y Y' ∧
      boxesOf (Sinab.putAll C cst i L f) = boxesOf f ∧ boxesOf (Sinab.putAll C cst true L' g) = boxesOf g ∧
      ((∃ y ∈ L.getLast?, y.isElem = true) → ∃ Z b, Y = Z ++ [b] ∧ b.notText = true) := by
  induction hr with
  | nil =>
    intro _ f g P X X' h
    exact ⟨X, X', h, rfl, rfl, by simp⟩
  | @cons x x' L L' hx hs ih =>
    intro hi f g P X X' h
    simp only [inlineOnlyAll, Bool.and_eq_true] at hi
    obtain ⟨Y, Y', k1, k2, k3, k4⟩ := h.put hC hx hi.1 cst i
    obtain ⟨Z, Z', l1, l2, l3, l4⟩ := ih hi.2 k1
    refine ⟨Z, Z', l1, l2.trans k2, l3.trans k3, ?_⟩
    rintro ⟨y, hy, he⟩
    cases L with
    | nil =>
      cases hs
      simp only [List.getLast?_singleton, Option.mem_def, Option.some.injEq] at hy
      subst hy
      have e := l1.left
      rw [Sinab.putAll, k1.left] at e
      have e := List.append_cancel_left e
      subst e
      exact k4 he
    | cons z L => exact l4 ⟨y, by simpa [List.getLast?_cons_cons] using hy, he⟩

/-- at the beginning of a line -/
theorem first_put {w : Style} {C : BoxContext} (hC : C.fontOf = E.font) {x x' : Styled} (hr : Restyled E w x x')
    (hi : x.inlineOnly = true) (hm : x.makesLine = true) {f g : Flow} (hf : f.inl = []) (hg : g.inl = []) (cst : Style)
    (i : Bool) : ∃ Y Y', Inner (x.put C cst i f) (x'.put C cst true g) [] Y Y' ∧ boxesOf (x.put C cst i f) = boxesOf f ∧
      boxesOf (x'.put C cst true g) = boxesOf g ∧ (x.isElem = true → ∃ Z b, Y = Z ++ [b] ∧ b.notText = true) := by
  have ht : ∀ s s' t, (Styled.text s t).makesLine = true → s.SameText s' → C.fontOf s = C.fontOf s' →
      ∃ Y Y', Inner ((Styled.text s t).put C cst i f) ((Styled.text s' t).put C cst true g) [] Y Y' := by
    intro s s' t hm hs hfo
    have hne : contribution s [] t ≠ [] := by
      unfold contribution
      simp only [Styled.makesLine] at hm
      split
      · rename_i hk
        rw [if_pos hk] at hm
        simpa using hm
      · rename_i hk
        rw [if_neg hk] at hm
        exact squeeze_ne _ hm
    have e' : contribution s' [] t = contribution s [] t := by
      unfold contribution
      rw [SameText.keeps hs]
    refine ⟨addRun C s (contribution s [] t) [], addRun C s' (contribution s [] t) [], ?_, ?_, addRun_recast hs hfo _ .nil,
      (addRun_ne C s _ []).2 hne, .inl rfl, rfl, addRun_filled C s _ rfl⟩
    · simp only [Styled.put, hf]
      rw [textInto_eq C s t rfl]
      rfl
    · simp only [Styled.put, hg]
      rw [textInto_eq C s' t rfl]
      exact congrArg (addRun C s' · []) e'
  cases hr with
  | text s t hs hfo =>
    obtain ⟨Y, Y', k⟩ := ht s w t hm hs (by rw [hC]; exact hfo)
    exact ⟨Y, Y', k, rfl, rfl, fun k => by cases k⟩
  | keep s t =>
    obtain ⟨Y, Y', k⟩ := ht s s t hm (.refl s) rfl
    exact ⟨Y, Y', k, rfl, rfl, fun k => by cases k⟩
  | elem id s o ins ks =>
    cases o with
    | inline =>
      obtain ⟨D, hD, hp⟩ := put_inlineElem C cst id s ins ks
      have hD := hD hi
      subst hD
      refine ⟨[.inlineBox s true true (Sinab.putAll C cst true ks Flow.empty).inl],
        [.inlineBox s true true (Sinab.putAll C cst true ks Flow.empty).inl], ⟨?_, ?_, .cons (.inl rfl) .nil, by simp, .inl rfl, rfl, ?_⟩, ?_, ?_, fun _ => ⟨[], _, rfl, rfl⟩⟩
      · exact (hp i f).1.trans (by rw [hf])
      · exact (hp true g).1.trans (by rw [hg]; rfl)
      · simpa [InlineLevelBox.filled, filledAll] using putAll_filled C cst ks true Flow.empty rfl
      · rw [(hp i f).2, List.append_nil]
      · rw [(hp true g).2, List.append_nil]
    | block => cases hm

theorem blanks_put (C : BoxContext) (cst : Style) (i : Bool) : ∀ (L : List Styled) (f : Flow), L.all Styled.blank = true →
    f.inl = [] → boxesOf (putAll C cst i L f) = boxesOf f ∧ (putAll C cst i L f).inl = []
  | [], f, _, hf => ⟨rfl, hf⟩
  | x :: L, f, h, hf => by
    simp only [List.all_cons, Bool.and_eq_true] at h
    cases x with
    | text s t =>
      obtain ⟨e1, e2⟩ := put_blank C cst _ h.1 f hf
      obtain ⟨e3, e4⟩ := blanks_put C cst i L ((Styled.text s t).put C cst i f) h.2 e2
      exact ⟨e3.trans e1, e4⟩
    | other => cases h.1
    | hidden _ => cases h.1
    | contents _ _ => cases h.1
    | elem _ _ _ _ _ => cases h.1

theorem Restyled.blank {w : Style} {x x' : Styled} (h : Restyled E w x x') (hx : x.blank = true) : x'.blank = true := by
  cases h with
  | text s t hs hf => simpa [Styled.blank, SameText.keeps hs] using hx
  | keep s t => exact hx
  | elem => exact hx

theorem restyled_split {w : Style} : ∀ {a b L' : List Styled}, List.Forall₂ (Restyled E w) (a ++ b) L' →
    ∃ a' b', L' = a' ++ b' ∧ List.Forall₂ (Restyled E w) a a' ∧ List.Forall₂ (Restyled E w) b b'
  | [], b, L', h => ⟨[], L', rfl, .nil, h⟩
  | x :: a, b, _, .cons hx hs => by
    obtain ⟨a', b', rfl, h1, h2⟩ := restyled_split hs
    exact ⟨_ :: a', b', rfl, .cons hx h1, h2⟩

theorem restyled_blanks {w : Style} {L L' : List Styled} (h : List.Forall₂ (Restyled E w) L L')
    (hL : L.all Styled.blank = true) : L'.all Styled.blank = true := by
  induction h with
  | nil => rfl
  | cons h _ ih =>
    simp only [List.all_cons, Bool.and_eq_true] at hL ⊢
    exact ⟨h.blank hL.1, ih hL.2⟩

theorem inlineOnlyAll_append (a b : List Styled) : inlineOnlyAll (a ++ b) = (inlineOnlyAll a && inlineOnlyAll b) := by
  induction a with
  | nil => rfl
  | cons x a ih => simp [inlineOnlyAll, ih, Bool.and_assoc]

/-- after an element there is no text to go on with -/
theorem put_elem_last (C : BoxContext) (cst : Style) {i : Bool} {z : Styled} (hz : z.isElem = true)
    (hi : i = true → z.inlineOnly = true) (f : Flow) :
    ∀ s t k, (z.put C cst i f).inl.getLast? ≠ some (.textRun s t k) := by
  cases z with
  | other => cases hz
  | hidden _ => cases hz
  | text _ _ => cases hz
  | contents _ _ => cases hz
  | elem id s o ins ks =>
    cases o with
    | inline =>
      obtain ⟨D, -, hD⟩ := put_inlineElem C cst id s ins ks
      rw [(hD i f).1]
      exact notText_last rfl
    | block =>
      by_cases ho : s.outOfFlow = true
      · obtain ⟨p1, p2⟩ := put_liftedElem C cst id s ins ks ho i f
        by_cases hc : i = true ∨ f.inl ≠ []
        · rw [(p1 hc).1]
          exact notText_last (liftedInline_facts C s ks).1
        · simp only [not_or, Bool.not_eq_true, not_not] at hc
          rw [(p2 hc.1 hc.2).1]
          simp
      · cases i with
        | true => exact absurd (hi rfl) ho
        | false =>
          simp only [Bool.not_eq_true] at ho
          rw [(put_block C cst (id := id) (ins := ins) (ks := ks) ho f).2]
          simp

/-- the content of the new element -/
theorem inner_all {w : Style} {C : BoxContext} (hC : C.fontOf = E.font) {A L L' : List Styled} (ho : OpensSpan A L)
    (hr : List.Forall₂ (Restyled E w) L L') (hL : inlineOnlyAll L = true) (cst : Style) (i : Bool)
    (hi : i = true → inlineOnlyAll A = true) {f g : Flow} (hf : f.inl = []) (hg : g.inl = []) :
    ∃ Y Y', Inner (putAll C cst i L (putAll C cst i A f)) (putAll C cst true L' g) (putAll C cst i A f).inl Y Y' ∧
      boxesOf (putAll C cst i L (putAll C cst i A f)) = boxesOf (putAll C cst i A f) ∧
      boxesOf (putAll C cst true L' g) = boxesOf g ∧
      ((∃ y ∈ L.getLast?, y.isElem = true) → ∃ Z b, Y = Z ++ [b] ∧ b.notText = true) := by
  -- something for a line, then the rest
  have go : ∀ (f0 : Flow) (y y' : Styled) (L₂ L₂' : List Styled) (g : Flow), Restyled E w y y' →
      List.Forall₂ (Restyled E w) L₂ L₂' → inlineOnlyAll L₂ = true → (∃ Y Y', Inner (y.put C cst i f0)
        (y'.put C cst true g) f0.inl Y Y' ∧ boxesOf (y.put C cst i f0) = boxesOf f0 ∧
        boxesOf (y'.put C cst true g) = boxesOf g ∧ (y.isElem = true → ∃ Z b, Y = Z ++ [b] ∧ b.notText = true)) →
      ∃ Y Y', Inner (putAll C cst i (y :: L₂) f0) (putAll C cst true (y' :: L₂') g) f0.inl Y Y' ∧
        boxesOf (putAll C cst i (y :: L₂) f0) = boxesOf f0 ∧ boxesOf (putAll C cst true (y' :: L₂') g) = boxesOf g ∧
        ((∃ z ∈ (y :: L₂).getLast?, z.isElem = true) → ∃ Z b, Y = Z ++ [b] ∧ b.notText = true) := by
    rintro f0 y y' L₂ L₂' g hy h2 hi2 ⟨Y, Y', k1, k2, k3, k4⟩
    obtain ⟨Z, Z', l1, l2, l3, l4⟩ := k1.putAll hC h2 cst i hi2
    refine ⟨Z, Z', l1, l2.trans k2, l3.trans k3, ?_⟩
    rintro ⟨z, hz, he⟩
    cases L₂ with
    | nil =>
      cases h2
      simp only [List.getLast?_singleton, Option.mem_def, Option.some.injEq] at hz
      subst hz
      have e := l1.left
      rw [putAll, k1.left] at e
      have e := List.append_cancel_left e
      subst e
      exact k4 he
    | cons z' L₂ => exact l4 ⟨z, by simpa [List.getLast?_cons_cons] using hz, he⟩
  -- at the beginning of a line
  have fresh : ∀ (f0 : Flow) (L₁ L₂ : List Styled) (y : Styled), L = L₁ ++ y :: L₂ → f0.inl = [] →
      L₁.all Styled.blank = true → y.makesLine = true →
      ∃ Y Y', Inner (putAll C cst i L f0) (putAll C cst true L' g) f0.inl Y Y' ∧
        boxesOf (putAll C cst i L f0) = boxesOf f0 ∧ boxesOf (putAll C cst true L' g) = boxesOf g ∧
        ((∃ y ∈ L.getLast?, y.isElem = true) → ∃ Z b, Y = Z ++ [b] ∧ b.notText = true) := by
    rintro f0 L₁ L₂ y rfl hf0 h1 hy
    obtain ⟨a', b', rfl, r1, r2⟩ := restyled_split hr
    cases r2 with
    | @cons _ y' _ L₂' ry r2 =>
      rw [inlineOnlyAll_append] at hL
      simp only [inlineOnlyAll, Bool.and_eq_true] at hL
      obtain ⟨e1, e2⟩ := blanks_put C cst i L₁ f0 h1 hf0
      obtain ⟨e3, e4⟩ := blanks_put C cst true a' g (restyled_blanks r1 h1) hg
      obtain ⟨Y0, Y0', m1, m2, m3, m4⟩ := first_put hC ry hL.2.1 hy e2 e4 cst i
      rw [← e2] at m1
      obtain ⟨Y, Y', k1, k2, k3, k4⟩ := go _ y y' L₂ L₂' _ ry r2 hL.2.2 ⟨Y0, Y0', m1, m2, m3, m4⟩
      rw [putAll_append, putAll_append]
      rw [e2, ← hf0] at k1
      refine ⟨Y, Y', k1, k2.trans e1, k3.trans e3, ?_⟩
      rwa [List.getLast?_append_of_ne_nil _ (by simp)]
  cases ho with
  | first A L₁ L₂ y hA h1 hy => exact fresh _ L₁ L₂ y rfl (blanks_put C cst i A f hA hf).2 h1 hy
  | afterBlock A₁ A L₁ L₂ z y hz hA h1 hy =>
    refine fresh _ L₁ L₂ y rfl ?_ h1 hy
    rw [putAll_append, putAll]
    refine (blanks_put C cst i A _ hA ?_).2
    cases i with
    | false => exact (put_inFlow C cst z hz _).2
    | true =>
      have := hi rfl
      rw [inlineOnlyAll_append] at this
      simp only [inlineOnlyAll, Bool.and_eq_true] at this
      have h2 := this.2.1
      cases z with
      | elem id s o ins ks =>
        cases o with
        | block => simp_all [Styled.inFlowBlock, Styled.inlineOnly]
        | inline => cases hz
      | other => cases hz
      | hidden _ => cases hz
      | text _ _ => cases hz
      | contents _ _ => cases hz
  | elem A L id s ins ks hk =>
    cases hr with
    | @cons _ y' _ L₂' ry r2 =>
      simp only [inlineOnlyAll, Bool.and_eq_true] at hL
      refine go _ _ y' _ L₂' g ry r2 hL.2 ?_
      cases ry with
      | elem =>
        obtain ⟨D, hD, hp⟩ := put_inlineElem C cst id s ins ks
        have hD := hD hL.1
        subst hD
        have hfi := putAll_filled C cst ks true Flow.empty rfl
        refine ⟨[.inlineBox s true true (Sinab.putAll C cst true ks Flow.empty).inl],
        [.inlineBox s true true (Sinab.putAll C cst true ks Flow.empty).inl], ⟨(hp i _).1, ?_, .cons (.inl rfl) .nil, by simp, .inr ?_, ?_, ?_⟩, ?_, ?_,
          fun _ => ⟨[], _, rfl, rfl⟩⟩
        · exact (hp true g).1.trans (by rw [hg]; rfl)
        · have := (putAll_text C cst true ks Flow.empty rfl hL.1).2
          simp only [inlineText, InlineLevelBox.text, List.append_nil]
          rw [this]
          exact hk
        · exact putAll_filled C cst A i f (by rw [hf]; rfl)
        · simpa [InlineLevelBox.filled, filledAll] using hfi
        · rw [(hp i _).2, List.append_nil]
        · rw [(hp true g).2, List.append_nil]
  | text A L z s c t hz hc =>
    have hlast : ∀ u v k, (putAll C cst i (A ++ [z]) f).inl.getLast? ≠ some (.textRun u v k) := by
      rw [putAll_append]
      refine put_elem_last C cst hz (fun hi' => ?_) _
      have := hi hi'
      rw [inlineOnlyAll_append] at this
      simp only [inlineOnlyAll, Bool.and_eq_true] at this
      exact this.2.1
    have hfill := putAll_filled C cst (A ++ [z]) i f (by rw [hf]; rfl)
    generalize putAll C cst i (A ++ [z]) f = f0 at hlast hfill
    have hu : ∀ acc, contribution s acc (c :: t) = contribution s [] (c :: t) := by
      intro acc
      unfold contribution
      rcases hc with hc | hc
      · rw [if_pos hc, if_pos hc]
      · rw [squeeze_nonWs hc, squeeze_nonWs hc]
    have hne : contribution s [] (c :: t) ≠ [] := by
      unfold contribution
      rcases hc with hc | hc
      · rw [if_pos hc]; simp
      · rw [squeeze_nonWs hc]; split <;> simp
    have tx : ∀ s', s.SameText s' → C.fontOf s = C.fontOf s' → ∃ Y Y',
        Inner ((Styled.text s (c :: t)).put C cst i f0) ((Styled.text s' (c :: t)).put C cst true g) f0.inl Y Y' := by
      intro s' hs hfo
      have e' : contribution s' [] (c :: t) = contribution s [] (c :: t) := by
        unfold contribution
        rw [SameText.keeps hs]
      refine ⟨[.textRun s (contribution s [] (c :: t)) (C.fontOf s)], [.textRun s' (contribution s [] (c :: t)) (C.fontOf s')],
        ?_, ?_, .cons (.inr ⟨s, s', _, _, rfl, by rw [hfo], hs⟩) .nil, by simp, .inr ?_, hfill, ?_⟩
      · simp only [Styled.put]
        rw [textInto_eq C s _ hfill, hu, addRun_fresh C s hne hlast]
      · simp only [Styled.put, hg]
        rw [textInto_eq C s' _ rfl]
        have : inlineText [] = [] := rfl
        rw [this, e', addRun_fresh C s' hne (by simp)]
        rfl
      · simpa [inlineText, InlineLevelBox.text] using hne
      · simpa [filledAll, InlineLevelBox.filled] using hne
    cases hr with
    | @cons _ y' _ L₂' ry r2 =>
      simp only [inlineOnlyAll, Bool.and_eq_true] at hL
      refine go f0 _ y' _ L₂' g ry r2 hL.2 ?_
      cases ry with
      | text _ _ hs hfo =>
        obtain ⟨Y, Y', k⟩ := tx w hs (by rw [hC]; exact hfo)
        exact ⟨Y, Y', k, rfl, rfl, fun k => by cases k⟩
      | keep =>
        obtain ⟨Y, Y', k⟩ := tx s (.refl s) rfl
        exact ⟨Y, Y', k, rfl, rfl, fun k => by cases k⟩

theorem OpensSpan.ne {A L : List Styled} (h : OpensSpan A L) : L ≠ [] := by
  cases h <;> simp

theorem putAll_spanned {C : BoxContext} (hC : C.fontOf = E.font) {s : Style} {cs cs' : List Styled}
    (h : SpannedContent E spanPlace s cs cs') : ∀ (cst : Style) (i : Bool) (f : Flow), f.inl = [] →
    (i = false → cst = s) → (i = true → inlineOnlyAll cs = true) →
    FlowW E (E.font s) (putAll C cst i cs f) (putAll C cst i cs' f) := by
  induction h with
  | here s A L L' B id w ins hw hf hL hr hk =>
    intro cst i f hf0 hcst hi
    have hfnt : i = false → E.font s = E.font cst := fun k => by rw [hcst k]
    have hiA : i = true → inlineOnlyAll A = true := by
      intro k
      have := hi k
      rw [inlineOnlyAll_append] at this
      simp only [Bool.and_eq_true] at this
      exact this.1
    have hiB : i = true → inlineOnlyAll B = true := by
      intro k
      have := hi k
      rw [inlineOnlyAll_append, inlineOnlyAll_append] at this
      simp only [Bool.and_eq_true] at this
      exact this.2.2
    rw [putAll_append, putAll_append, putAll_append, putAll]
    obtain ⟨Y, Y', k1, k2, k3, k4⟩ := inner_all hC hk.1 hr hL cst i hiA hf0 (g := Flow.empty) rfl
    generalize putAll C cst i A f = f0 at k1 k2
    obtain ⟨D, -, hD⟩ := put_inlineElem C cst id w ins L'
    have hfill' : filledAll Y' = true := (recast_text k1.recast).2.trans k1.filledX
    have hDe : boxesOf ((Styled.elem id w .inline ins L').put C cst i f0) = boxesOf f0 := by
      have e1 := (hD true Flow.empty).2
      have e2 : boxesOf ((Styled.elem id w .inline ins L').put C cst true Flow.empty) = boxesOf Flow.empty := by
        have : boxesOf ((Styled.elem id w .inline ins L').put C cst true Flow.empty) =
            boxesOf (putAll C cst true L' (((({ Flow.empty with inl := [] } : Flow)).note id ⟨none, true⟩).claim id)) := rfl
        rw [this]
        obtain ⟨D', u1, u2, -⟩ := putAll_uniform C cst L' true Flow.empty
          ((((({ Flow.empty with inl := [] } : Flow)).note id ⟨none, true⟩).claim id)) rfl
        rw [k3] at u1
        have : D' = [] := by simpa using u1
        rw [u2, this, List.append_nil]
        rfl
      rw [e2] at e1
      have : D = [] := by simpa using e1
      rw [(hD i f0).2, this, List.append_nil]
    have hbox : InlW E (E.font s) Y [.inlineBox w true true (putAll C cst true L' Flow.empty).inl] := by
      rw [k1.right]
      refine ⟨?_, ?_, k1.filledX, ?_, by simp [k1.ne]⟩
      · have := SpannedInlines.wrap (E := E) (E.font s) w true true Y Y' [] [] hw hf (recast_spanned k1.recast) (.nil _)
        rwa [List.append_nil] at this
      · simp [inlineText, InlineLevelBox.text, (recast_text k1.recast).1]
      · simpa [filledAll, InlineLevelBox.filled] using hfill'
    have hmid : FlowW E (E.font s) (putAll C cst i L f0) ((Styled.elem id w .inline ins L').put C cst i f0) := by
      refine ⟨?_, ?_⟩
      · rw [k1.left, (hD i f0).1]
        exact (InlW.refl k1.filled).append hbox
      · rw [k2, hDe]
        exact .refl _
    rcases hk.2 with hB | hL2
    · cases B with
      | nil => exact hmid
      | cons y B =>
        rw [putAll, putAll]
        have hiB' : i = true → y.inlineOnly = true ∧ inlineOnlyAll B = true := by
          intro k
          have := hiB k
          simpa only [inlineOnlyAll, Bool.and_eq_true] using this
        exact (putAll_flowS C B i _ _ (hmid.put_elem C (hB y rfl) hfnt fun k => (hiB' k).1) hfnt fun k => (hiB' k).2).weak
    · obtain ⟨y, hy⟩ := Option.ne_none_iff_exists'.1 (mt List.getLast?_eq_none_iff.1 hk.1.ne)
      obtain ⟨Z, b, rfl, hb⟩ := k4 ⟨y, hy, hL2 y hy⟩
      refine (putAll_flowS C B i _ _ ⟨?_, hmid.blocks⟩ hfnt hiB).weak
      refine ⟨_, _, [], (List.append_nil _).symm, (List.append_nil _).symm, hmid.inl, rfl, .inr ⟨?_, ?_⟩⟩
      · rw [k1.left, ← List.append_assoc]
        exact notText_last hb
      · rw [(hD i f0).1]
        exact notText_last rfl
  | block s0 A B id s ins cs cs' ho h ih =>
    intro cst i f hf0 hcst hi
    have hfnt : i = false → E.font s0 = E.font cst := fun k => by rw [hcst k]
    cases i with
    | true =>
      have := hi rfl
      rw [inlineOnlyAll_append] at this
      simp only [inlineOnlyAll, Styled.inlineOnly, Bool.and_eq_true] at this
      rw [ho] at this
      exact absurd this.2.1 (by simp)
    | false =>
      rw [putAll_append, putAll_append, putAll, putAll]
      have hg : Spanned E (containerOf C s cs).1 (containerOf C s cs').1 :=
        (ih s false Flow.empty rfl (fun _ => rfl) (fun k => by cases k)).container
      have hfi := putAll_filled C cst A false f (by rw [hf0]; rfl)
      generalize putAll C cst false A f = f0 at hfi
      obtain ⟨q1, q2⟩ := put_block C cst (id := id) (ins := ins) (ks := cs) ho f0
      obtain ⟨q1', q2'⟩ := put_block C cst (id := id) (ins := ins) (ks := cs') ho f0
      have hb : SpannedBlock E (blockBox C s ins cs) (blockBox C s ins cs') := by
        cases ins with
        | flow => exact .same _ _ _ hg
        | flowRoot => exact .independent _ _ _ _ _ hg
      refine (putAll_flowS C B false _ _ ⟨?_, ?_⟩ hfnt (fun k => by cases k)).weak
      · rw [q2, q2']
        exact .refl rfl
      · rw [q1, q1']
        exact (SpannedBlocks.refl _).append (.cons _ _ _ _ hb .nil)
  | lifted s0 A B id s ins cs cs' ho h ih =>
    intro cst i f hf0 hcst hi
    have hfnt : i = false → E.font s0 = E.font cst := fun k => by rw [hcst k]
    have hiB : i = true → inlineOnlyAll B = true := by
      intro k
      have := hi k
      rw [inlineOnlyAll_append] at this
      simp only [inlineOnlyAll, Bool.and_eq_true] at this
      exact this.2.2
    rw [putAll_append, putAll_append, putAll, putAll]
    have hg : Spanned E (containerOf C s cs).1 (containerOf C s cs').1 :=
      (ih s false Flow.empty rfl (fun _ => rfl) (fun k => by cases k)).container
    have hfi := putAll_filled C cst A i f (by rw [hf0]; rfl)
    generalize putAll C cst i A f = f0 at hfi
    obtain ⟨g1, g2⟩ := liftedInline_spanned C s hg
    obtain ⟨p1, p2⟩ := put_liftedElem C cst id s ins cs ho i f0
    obtain ⟨q1, q2⟩ := put_liftedElem C cst id s ins cs' ho i f0
    obtain ⟨a1, a2, a3⟩ := liftedInline_facts C s cs
    obtain ⟨b1, b2, b3⟩ := liftedInline_facts C s cs'
    refine (putAll_flowS C B i _ _ ?_ hfnt hiB).weak
    by_cases hc : i = true ∨ f0.inl ≠ []
    · refine ⟨?_, ?_⟩
      · rw [(p1 hc).1, (q1 hc).1]
        exact (InlW.refl hfi).push₂ g1 (b3.trans a3.symm) a2 b2 a1 b1
      · rw [(p1 hc).2, (q1 hc).2]
        exact .refl _
    · simp only [not_or, Bool.not_eq_true, not_not] at hc
      refine ⟨?_, ?_⟩
      · rw [(p2 hc.1 hc.2).1, (q2 hc.1 hc.2).1]
        exact .refl rfl
      · rw [(p2 hc.1 hc.2).2, (q2 hc.1 hc.2).2]
        exact (SpannedBlocks.refl _).append (.cons _ _ _ _ g2 .nil)
  | inline s0 A B id s ins cs cs' hi0 h ih =>
    intro cst i f hf0 hcst hi
    have hfnt : i = false → E.font s0 = E.font cst := fun k => by rw [hcst k]
    have hiB : i = true → inlineOnlyAll B = true := by
      intro k
      have := hi k
      rw [inlineOnlyAll_append] at this
      simp only [inlineOnlyAll, Bool.and_eq_true] at this
      exact this.2.2
    rw [putAll_append, putAll_append, putAll, putAll]
    have hg := ih cst true Flow.empty rfl (fun k => by cases k) (fun _ => hi0)
    have hfi := putAll_filled C cst A i f (by rw [hf0]; rfl)
    generalize putAll C cst i A f = f0 at hfi
    obtain ⟨D, hDe, hD⟩ := put_inlineBoxes C cst id s ins cs
    obtain ⟨D', hDe', hD'⟩ := put_inlineBoxes C cst id s ins cs'
    refine (putAll_flowS C B i _ _ ⟨?_, ?_⟩ hfnt hiB).weak
    · rw [(hD i f0).1, (hD' i f0).1]
      refine (InlW.refl hfi).push₂ (.box _ _ _ _ _ hg.inl.spanned) hg.inl.text ?_ ?_ rfl rfl
      · simpa [InlineLevelBox.filled] using hg.inl.filled
      · simpa [InlineLevelBox.filled] using hg.inl.filled'
    · rw [(hD i f0).2, (hD' i f0).2, hDe, hDe']
      exact (SpannedBlocks.refl _).append hg.blocks

theorem containerOf_spanned {C : BoxContext} (hC : C.fontOf = E.font) {s : Style} {cs cs' : List Styled}
    (h : SpannedContent E spanPlace s cs cs') : Spanned E (containerOf C s cs).1 (containerOf C s cs').1 :=
  (putAll_spanned hC h s false Flow.empty rfl (fun _ => rfl) (fun k => by cases k)).container

end Sinab
