import Verif.Spec.PrunedContent
import Verif.Lemmas.GroupedContent

/-! Boxes of a document from which an element that is out of flow is removed (C95). -/

namespace Sinab

open Sinab.Append

mutual

theorem Pruned.refl : ∀ c : BlockContainer, Pruned c c
  | .blockLevelBoxes bs => .blocks _ _ (PrunedBlocks.refl bs)
  | .inlineFormattingContext _ bs => .inlines _ _ _ (PrunedInlines.refl bs)

theorem PrunedBlock.refl : ∀ b : BlockLevelBox, PrunedBlock b b
  | .sameFormattingContextBlock _ c => .same _ _ _ (Pruned.refl c)
  | .independent _ (.mk c _) => .independent _ _ _ _ _ (Pruned.refl c)
  | .outOfFlowAbsolutelyPositionedBox _ (.mk c _) => .absolute _ _ _ _ _ (Pruned.refl c)
  | .outOfFlowFloatBox _ _ => .float _ _

theorem PrunedBlocks.refl : ∀ bs : List BlockLevelBox, PrunedBlocks bs bs
  | [] => .nil
  | b :: bs => .keep _ _ _ _ (PrunedBlock.refl b) (PrunedBlocks.refl bs)

theorem PrunedInline.refl : ∀ b : InlineLevelBox, PrunedInline b b
  | .textRun .. => .text _ _ _
  | .inlineBox _ _ _ ks => .box _ _ _ _ _ (PrunedInlines.refl ks)
  | .outOfFlowAbsolutelyPositionedBox _ (.mk c _) => .absolute _ _ _ _ _ (Pruned.refl c)
  | .outOfFlowFloatBox _ _ => .float _ _

theorem PrunedInlines.refl : ∀ bs : List InlineLevelBox, PrunedInlines bs bs
  | [] => .nil
  | b :: bs => .keep _ _ _ _ (PrunedInline.refl b) (PrunedInlines.refl bs)

end

theorem PrunedBlocks.append : ∀ {a a' b b' : List BlockLevelBox}, PrunedBlocks a a' → PrunedBlocks b b' →
    PrunedBlocks (a ++ b) (a' ++ b')
  | _, _, _, _, .nil, h => h
  | _, _, _, _, .keep _ _ _ _ h hs, h' => .keep _ _ _ _ h (PrunedBlocks.append hs h')
  | _, _, _, _, .drop _ _ _ h hs, h' => .drop _ _ _ h (PrunedBlocks.append hs h')

theorem PrunedInlines.append : ∀ {a a' b b' : List InlineLevelBox}, PrunedInlines a a' → PrunedInlines b b' →
    PrunedInlines (a ++ b) (a' ++ b')
  | _, _, _, _, .nil, h => h
  | _, _, _, _, .keep _ _ _ _ h hs, h' => .keep _ _ _ _ h (PrunedInlines.append hs h')
  | _, _, _, _, .drop _ _ _ h hs, h' => .drop _ _ _ h (PrunedInlines.append hs h')

theorem PrunedBlocks.one (a : List BlockLevelBox) {x : BlockLevelBox} (hx : x.isOutOfFlow) (b : List BlockLevelBox) :
    PrunedBlocks (a ++ [x] ++ b) (a ++ b) := by
  rw [List.append_assoc]
  exact (PrunedBlocks.refl a).append (.drop _ _ _ hx (.refl b))

theorem PrunedInlines.one (a : List InlineLevelBox) {x : InlineLevelBox} (hx : x.isOutOfFlow) :
    PrunedInlines (a ++ [x]) a := by
  have := (PrunedInlines.refl a).append (.drop x [] [] hx .nil)
  rwa [List.append_nil] at this

theorem anonBox_one (cst : Style) (a : List InlineLevelBox) {x : InlineLevelBox} (hx : x.isOutOfFlow) :
    PrunedBlock (anonBox cst (a ++ [x])) (anonBox cst a) :=
  .same _ _ _ (.inlines _ _ _ (.one a hx))

/-! ## An element that is out of flow -/

theorem put_out_block (C : BoxContext) (cst : Style) {id : NodeId} {s : Style} {ins : DisplayInside} {ks : List Styled}
    (ho : s.outOfFlow = true) (f : Flow) (hf : f.inl = []) :
    ∃ x : BlockLevelBox, x.isOutOfFlow ∧
      boxesOf ((Styled.elem id s .block ins ks).put C cst false f) = boxesOf f ++ [x] ∧
      ((Styled.elem id s .block ins ks).put C cst false f).inl = [] := by
  have hi : ((f.note id ⟨none, true⟩).claim id).inl = [] := hf
  have hb : (false || !((f.note id ⟨none, true⟩).claim id).inl.isEmpty) = false := by rw [hi]; rfl
  simp only [Styled.put]
  by_cases hp : (s.val .position).isAbsolutelyPositioned = true
  · rw [if_pos hp, hb]
    refine ⟨.outOfFlowAbsolutelyPositionedBox s (.mk (containerOf C s ks).1 (containerOf C s ks).2.1), ?_, ?_, hf⟩
    · simpa [BlockLevelBox.isOutOfFlow, Position.isAbsolutelyPositioned] using hp
    · rw [if_neg (by simp), boxesOf_pushBlk]
      rfl
  · have hfl : (s.val .float).isFloating = true := by
      simp only [Style.outOfFlow, Bool.or_eq_true] at ho
      exact ho.resolve_left hp
    rw [if_neg hp, if_pos hfl, hb]
    exact ⟨.outOfFlowFloatBox s (.mk (containerOf C s ks).1 (containerOf C s ks).2.1), trivial, by
      rw [if_neg (by simp), boxesOf_pushBlk]; rfl, hf⟩

theorem put_out_inline (C : BoxContext) (cst : Style) {id : NodeId} {s : Style} {ins : DisplayInside} {ks : List Styled}
    (ho : s.outOfFlow = true) (f : Flow) (hf : f.inl ≠ []) :
    ∃ x : InlineLevelBox, x.isOutOfFlow ∧
      boxesOf ((Styled.elem id s .block ins ks).put C cst false f) = boxesOf f ∧
      ((Styled.elem id s .block ins ks).put C cst false f).inl = f.inl ++ [x] := by
  have hi : ((f.note id ⟨none, true⟩).claim id).inl = f.inl := rfl
  have hb : (false || !((f.note id ⟨none, true⟩).claim id).inl.isEmpty) = true := by
    rw [hi]; simpa using hf
  simp only [Styled.put]
  by_cases hp : (s.val .position).isAbsolutelyPositioned = true
  · rw [if_pos hp, hb]
    refine ⟨.outOfFlowAbsolutelyPositionedBox s (.mk (containerOf C s ks).1 (containerOf C s ks).2.1), ?_, rfl, rfl⟩
    simpa [InlineLevelBox.isOutOfFlow, Position.isAbsolutelyPositioned] using hp
  · have hfl : (s.val .float).isFloating = true := by
      simp only [Style.outOfFlow, Bool.or_eq_true] at ho
      exact ho.resolve_left hp
    rw [if_neg hp, if_pos hfl, hb]
    exact ⟨.outOfFlowFloatBox s (.mk (containerOf C s ks).1 (containerOf C s ks).2.1), trivial, rfl, rfl⟩

theorem putAll_blank (C : BoxContext) (cst : Style) : ∀ (L : List Styled) (f : Flow), L.all Styled.blank = true → f.inl = [] →
    boxesOf (putAll C cst false L f) = boxesOf f ∧ (putAll C cst false L f).inl = []
  | [], f, _, hf => ⟨rfl, hf⟩
  | x :: L, f, h, hf => by
    simp only [List.all_cons, Bool.and_eq_true] at h
    obtain ⟨e1, e2⟩ := put_blank C cst x h.1 f hf
    obtain ⟨e3, e4⟩ := putAll_blank C cst L _ h.2 e2
    rw [putAll, e3, e1]
    exact ⟨rfl, e4⟩

/-! ## The boxes -/

/-- two builders that differ as in `Pruned` -/
def FlowPruned (f f' : Flow) : Prop :=
  f.inl = f'.inl ∧ boxesOf f ≠ [] ∧ boxesOf f' ≠ [] ∧ PrunedBlocks (boxesOf f) (boxesOf f')

theorem FlowPruned.more {f f' g g' : Flow} (h : FlowPruned f f') (hu : Uniform f f' g g') : FlowPruned g g' := by
  obtain ⟨h1, h2, h3, h4⟩ := h
  obtain ⟨D, u1, u2, u3⟩ := hu
  refine ⟨u3, by rw [u1]; simp [h2], by rw [u2]; simp [h3], ?_⟩
  rw [u1, u2]
  exact h4.append (.refl D)

theorem FlowPruned.container {f f' : Flow} (h : FlowPruned f f') (cst : Style) :
    Pruned (f.container cst).1 (f'.container cst).1 := by
  obtain ⟨h1, h2, h3, h4⟩ := h
  have n : ¬ (f'.inl ≠ [] ∧ boxesOf f = []) := fun k => h2 k.2
  have n' : ¬ (f'.inl ≠ [] ∧ boxesOf f' = []) := fun k => h3 k.2
  rw [container_eq, container_eq, h1, if_neg n, if_neg n']
  exact .blocks _ _ (h4.append (.refl _))

/-- a block after an element that is out of flow -/
theorem put_out_then (C : BoxContext) (cst : Style) {id : NodeId} {s : Style} {ins : DisplayInside} {ks : List Styled}
    (ho : s.outOfFlow = true) (f : Flow) {y : Styled} (hy : y.inFlowBlock = true) :
    FlowPruned (y.put C cst false ((Styled.elem id s .block ins ks).put C cst false f)) (y.put C cst false f) := by
  obtain ⟨y1, y2⟩ := put_inFlow C cst y hy f
  obtain ⟨y1', y2'⟩ := put_inFlow C cst y hy ((Styled.elem id s .block ins ks).put C cst false f)
  refine ⟨y2'.trans y2.symm, by rw [y1']; simp, by rw [y1]; simp, ?_⟩
  rw [y1, y1']
  by_cases hf : f.inl = []
  · obtain ⟨x, hx, e1, e2⟩ := put_out_block C cst (id := id) (ins := ins) (ks := ks) ho f hf
    rw [e1, e2, hf, if_pos rfl, List.append_nil, List.append_nil]
    exact .one _ hx _
  · obtain ⟨x, hx, e1, e2⟩ := put_out_inline C cst (id := id) (ins := ins) (ks := ks) ho f hf
    rw [e1, e2, if_neg hf, if_neg (by simp)]
    exact ((PrunedBlocks.refl _).append (.keep _ _ _ _ (anonBox_one cst _ hx) .nil)).append (.refl _)

theorem containerOf_pruned (C : BoxContext) {cs cs' : List Styled} (h : PrunedContent nextToBlock cs cs') :
    ∀ s0 : Style, Pruned (containerOf C s0 cs).1 (containerOf C s0 cs').1 := by
  induction h with
  | here A B id s ins ks ho hk =>
    intro s0
    unfold containerOf
    rw [putAll_append, putAll_append, putAll]
    rcases hk with hk | ⟨A₁, y, A₂, rfl, hy, hA⟩ | ⟨B₁, y, B₂, rfl, hy, hB, hA⟩
    · generalize putAll C s0 false A Flow.empty = f
      cases B with
      | cons y B =>
        rw [putAll, putAll]
        have h1 := put_out_then C s0 (id := id) (ins := ins) (ks := ks) ho f (hk y rfl)
        exact (h1.more (putAll_uniform C s0 B false _ _ h1.1)).container s0
      | nil =>
        rw [putAll, putAll, container_eq, container_eq]
        by_cases hf : f.inl = []
        · obtain ⟨x, hx, e1, e2⟩ := put_out_block C s0 (id := id) (ins := ins) (ks := ks) ho f hf
          have n : ∀ l : List BlockLevelBox, ¬ (([] : List InlineLevelBox) ≠ [] ∧ l = []) := fun _ k => k.1 rfl
          rw [e1, e2, hf, if_neg (n _), if_neg (n _), if_pos rfl, List.append_nil, List.append_nil]
          have := PrunedBlocks.one (boxesOf f) hx []
          rw [List.append_nil, List.append_nil] at this
          exact .blocks _ _ this
        · obtain ⟨x, hx, e1, e2⟩ := put_out_inline C s0 (id := id) (ins := ins) (ks := ks) ho f hf
          have hn : f.inl ++ [x] ≠ [] := by simp
          rw [e1, e2]
          by_cases hb : boxesOf f = []
          · rw [if_pos ⟨hn, hb⟩, if_pos ⟨hf, hb⟩]
            exact .inlines _ _ _ (.one _ hx)
          · have n1 : ¬ (f.inl ++ [x] ≠ [] ∧ boxesOf f = []) := fun k => hb k.2
            have n2 : ¬ (f.inl ≠ [] ∧ boxesOf f = []) := fun k => hb k.2
            rw [if_neg n1, if_neg n2, if_neg hn, if_neg hf]
            exact .blocks _ _ ((PrunedBlocks.refl _).append (.keep _ _ _ _ (anonBox_one s0 _ hx) .nil))
    · have hf : (putAll C s0 false (A₁ ++ y :: A₂) Flow.empty).inl = [] ∧
          boxesOf (putAll C s0 false (A₁ ++ y :: A₂) Flow.empty) ≠ [] := by
        rw [putAll_append, putAll]
        obtain ⟨y1, y2⟩ := put_inFlow C s0 y hy (putAll C s0 false A₁ Flow.empty)
        obtain ⟨z1, z2⟩ := putAll_blank C s0 A₂ _ hA y2
        exact ⟨z2, by rw [z1, y1]; simp⟩
      generalize putAll C s0 false (A₁ ++ y :: A₂) Flow.empty = f at hf
      obtain ⟨x, hx, e1, e2⟩ := put_out_block C s0 (id := id) (ins := ins) (ks := ks) ho f hf.1
      have h1 : FlowPruned ((Styled.elem id s .block ins ks).put C s0 false f) f := by
        refine ⟨e2.trans hf.1.symm, by rw [e1]; simp, hf.2, ?_⟩
        have := PrunedBlocks.one (boxesOf f) hx []
        rw [List.append_nil, List.append_nil] at this
        rw [e1]
        exact this
      exact (h1.more (putAll_uniform C s0 B false _ _ h1.1)).container s0
    · obtain ⟨a1, a2⟩ := putAll_blank C s0 A Flow.empty hA rfl
      generalize putAll C s0 false A Flow.empty = f at a1 a2
      obtain ⟨x, hx, e1, e2⟩ := put_out_block C s0 (id := id) (ins := ins) (ks := ks) ho f a2
      rw [putAll_append, putAll_append, putAll, putAll]
      obtain ⟨z1, z2⟩ := putAll_blank C s0 B₁ f hB a2
      obtain ⟨z1', z2'⟩ := putAll_blank C s0 B₁ _ hB e2
      obtain ⟨y1, y2⟩ := put_inFlow C s0 y hy (putAll C s0 false B₁ f)
      obtain ⟨y1', y2'⟩ := put_inFlow C s0 y hy (putAll C s0 false B₁ ((Styled.elem id s .block ins ks).put C s0 false f))
      have h1 : FlowPruned (y.put C s0 false (putAll C s0 false B₁ ((Styled.elem id s .block ins ks).put C s0 false f)))
          (y.put C s0 false (putAll C s0 false B₁ f)) := by
        refine ⟨y2'.trans y2.symm, by rw [y1']; simp, by rw [y1]; simp, ?_⟩
        rw [y1, y1', z2, z2', z1, z1', e1, if_pos rfl, List.append_nil, List.append_nil]
        exact .one _ hx _
      exact (h1.more (putAll_uniform C s0 B₂ false _ _ h1.1)).container s0
  | block A B id s ins cs cs' ho h ih =>
    intro s0
    unfold containerOf
    rw [putAll_append, putAll_append, putAll, putAll]
    obtain ⟨q1, q2⟩ := put_block C s0 (id := id) (ins := ins) (ks := cs) ho (putAll C s0 false A Flow.empty)
    obtain ⟨q1', q2'⟩ := put_block C s0 (id := id) (ins := ins) (ks := cs') ho (putAll C s0 false A Flow.empty)
    have hb : PrunedBlock (blockBox C s ins cs) (blockBox C s ins cs') := by
      cases ins with
      | flow => exact .same _ _ _ (ih s)
      | flowRoot => exact .independent _ _ _ _ _ (ih s)
    refine (FlowPruned.more ?_ (putAll_uniform C s0 B false _ _ (q2.trans q2'.symm))).container s0
    refine ⟨q2.trans q2'.symm, by rw [q1]; simp, by rw [q1']; simp, ?_⟩
    rw [q1, q1']
    exact (PrunedBlocks.refl _).append (.keep _ _ _ _ hb .nil)

end Sinab
