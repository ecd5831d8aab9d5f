import Verif.Spec.Pinned
import Verif.Lemmas.Pinned
import Verif.Props.PageHeight

/-! The boxes of absolutely positioned elements (C98). -/

namespace Sinab

open PageHeight (heldAll_append inlineAbsBoxes_app)

/-- the absolutely positioned boxes in the builder that belong to what is outside -/
def Flow.helds (f : Flow) : List (Style × Bfc) := heldAll (f.blocks.map (·.box)) ++ inlineAbsBoxes f.inl

theorem Flow.helds_flush (cst : Style) (f : Flow) : (f.flush cst).helds = f.helds := by
  unfold Flow.flush
  split
  · rfl
  · have hp : (Style.anonymousInheritingFrom (some cst)).val .position ≠ Position.relative := by
      have e : (Style.anonymousInheritingFrom (some cst)).val .position = Position.static := rfl
      rw [e]
      decide
    simp [Flow.helds, heldAll_append, heldAll, Flow.anon, BlockLevelBox.held, BlockContainer.held, inlineAbsBoxes, hp]

theorem Flow.helds_container (cst : Style) (f : Flow) : (f.container cst).1.held = f.helds := by
  unfold Flow.container
  split
  · rename_i h
    simp only [Bool.and_eq_true, List.isEmpty_iff] at h
    simp [Flow.helds, h.2, heldAll, BlockContainer.held]
  · rw [← Flow.helds_flush cst f]
    have hi : (f.flush cst).inl = [] := by
      unfold Flow.flush
      split
      · rename_i h
        simpa using h
      · rfl
    simp [BlockContainer.held, Flow.helds, hi, inlineAbsBoxes]

theorem textInto_absBoxes (C : BoxContext) (st : Style) (t : Text) (l : List InlineLevelBox) :
    inlineAbsBoxes (textInto C st t l) = inlineAbsBoxes l := by
  obtain ⟨b, e⟩ := textInto_any C st t l
  rw [e]
  generalize (if st.keepsSpace then t else squeeze b t) = t
  unfold addRun
  split
  · rfl
  · rcases appendText_cases C st t l with ⟨s, old, f, pre, rfl, e⟩ | ⟨-, e⟩ <;>
      rw [e] <;> simp [inlineAbsBoxes_app, inlineAbsBoxes, InlineLevelBox.absBoxes]

theorem Flow.helds_pushBlk (f : Flow) (b : Blk) {q : Style × Bfc} : q ∈ (f.pushBlk b).helds ↔ q ∈ f.helds ∨ q ∈ b.box.held := by
  simp only [Flow.helds, Flow.pushBlk, List.map_append, List.map_cons, List.map_nil, heldAll_append, heldAll,
    List.append_nil, List.mem_append]
  tauto

theorem Flow.helds_push (f : Flow) (b : InlineLevelBox) {q : Style × Bfc} :
    q ∈ (f.push b).helds ↔ q ∈ f.helds ∨ q ∈ b.absBoxes := by
  simp only [Flow.helds, Flow.push, inlineAbsBoxes_app, inlineAbsBoxes, List.append_nil, List.mem_append]
  tauto

theorem helds_inline (C : BoxContext) (cst : Style) (inl : Bool) (id : NodeId) (st : Style) (ins : DisplayInside)
    (ks : List Styled) (f : Flow) {q : Style × Bfc} : q ∈ ((Styled.elem id st .inline ins ks).put C cst inl f).helds ↔
      q ∈ (putAll C cst true ks ((({ f with inl := [] } : Flow).note id ⟨none, true⟩).claim id)).helds ∨
        q ∈ inlineAbsBoxes f.inl := by
  simp only [Styled.put, Flow.helds, Flow.note, inlineAbsBoxes_app, inlineAbsBoxes, InlineLevelBox.absBoxes,
    List.append_nil, List.mem_append]
  tauto

mutual

/-- what is in the builder stays there -/
theorem put_helds (C : BoxContext) {q : Style × Bfc} : ∀ (c : Styled) (cst : Style) (inl : Bool) (f : Flow), q ∈ f.helds →
    q ∈ (c.put C cst inl f).helds
  | .other, _, _, f, h => h
  | .hidden id, _, _, f, h => h
  | .text st t, _, _, f, h => by
    simpa only [Styled.put, Flow.helds, textInto_absBoxes] using h
  | .contents id ks, cst, inl, f, h => putAll_helds C ks cst inl _ h
  | .elem id st .inline _ ks, cst, inl, f, h => by
    rw [helds_inline]
    rcases List.mem_append.1 h with h | h
    · exact .inl (putAll_helds C ks cst true _ (List.mem_append_left _ h))
    · exact .inr h
  | .elem id st .block ins ks, cst, inl, f, h => by
    have hf : q ∈ ((f.note id ⟨none, true⟩).claim id).helds := h
    have hf' : q ∈ ({ (f.note id ⟨none, true⟩).claim id with floats := true } : Flow).helds := h
    simp only [Styled.put]
    split
    · split
      · exact (Flow.helds_push _ _).2 (.inl hf)
      · exact (Flow.helds_pushBlk _ _).2 (.inl hf)
    · split
      · split
        · exact (Flow.helds_push _ _).2 (.inl hf')
        · exact (Flow.helds_pushBlk _ _).2 (.inl hf')
      · split
        · exact (Flow.helds_pushBlk _ _).2 (.inl (by rw [Flow.helds_flush]; exact hf))
        · exact (Flow.helds_pushBlk _ _).2 (.inl (by rw [Flow.helds_flush]; exact hf))

/-- see `put_helds` -/
theorem putAll_helds (C : BoxContext) {q : Style × Bfc} : ∀ (cs : List Styled) (cst : Style) (inl : Bool) (f : Flow),
    q ∈ f.helds → q ∈ (putAll C cst inl cs f).helds
  | [], _, _, f, h => h
  | c :: cs, cst, inl, f, h => putAll_helds C cs cst inl _ (put_helds C c cst inl f h)

end

/-- the box of an absolutely positioned element -/
def absoluteBox (C : BoxContext) (s : Style) (ks : List Styled) : Style × Bfc :=
  (s, .mk (containerOf C s ks).1 (containerOf C s ks).2.1)

theorem putAll_holding (C : BoxContext) {id : NodeId} {s : Style} {ins : DisplayInside} {ks cs : List Styled}
    (ha : (Styled.elem id s .block ins ks).absolute = true) (h : HeldContent (.elem id s .block ins ks) cs) :
    ∀ (cst : Style) (inl : Bool) (f : Flow), absoluteBox C s ks ∈ (putAll C cst inl cs f).helds := by
  induction h with
  | here A B =>
    intro cst inl f
    rw [putAll_append, putAll]
    apply putAll_helds
    simp only [Styled.put]
    rw [if_pos (show (s.val .position).isAbsolutelyPositioned = true from ha)]
    split
    · have := (Flow.helds_push (((putAll C cst inl A f).note id ⟨none, true⟩).claim id)
        (.outOfFlowAbsolutelyPositionedBox s (absoluteBox C s ks).2) (q := absoluteBox C s ks)).2
        (.inr (by simp [InlineLevelBox.absBoxes, absoluteBox]))
      exact this
    · refine (Flow.helds_pushBlk _ _).2 (.inr ?_)
      simp [BlockLevelBox.held, absoluteBox, containerOf]
  | inline A B id' s' ins' cs h ih =>
    intro cst inl f
    rw [putAll_append, putAll]
    apply putAll_helds
    rw [helds_inline]
    exact .inl (ih _ _ _)
  | block A B id' s' ins' cs ho hp h ih =>
    intro cst inl f
    rw [putAll_append, putAll]
    apply putAll_helds
    have h1 : ¬ (s'.val .position).isAbsolutelyPositioned = true := by
      intro hh
      simp [Style.outOfFlow, hh] at ho
    have h2 : ¬ (s'.val .float).isFloating = true := by
      intro hh
      simp [Style.outOfFlow, hh] at ho
    simp only [Styled.put]
    rw [if_neg h1, if_neg h2]
    have key := ih s' false Flow.empty
    rw [← Flow.helds_container s'] at key
    split
    · exact (Flow.helds_pushBlk _ _).2 (.inr (by simpa [BlockLevelBox.held, hp] using key))
    · exact (Flow.helds_pushBlk _ _).2 (.inr (by simpa [BlockLevelBox.held, hp] using key))

theorem containerOf_holds (C : BoxContext) {id : NodeId} {s : Style} {ins : DisplayInside} {ks cs : List Styled}
    (ha : (Styled.elem id s .block ins ks).absolute = true) (h : HeldContent (.elem id s .block ins ks) cs) (s0 : Style) :
    absoluteBox C s ks ∈ (containerOf C s0 cs).1.held := by
  unfold containerOf
  rw [Flow.helds_container]
  exact putAll_holding C ha h _ _ _

theorem containerOf_loneAbsolute (C : BoxContext) {id : NodeId} {s : Style} {ins : DisplayInside} {ks cs : List Styled}
    (ha : (Styled.elem id s .block ins ks).absolute = true) (h : LoneAbsolute (.elem id s .block ins ks) cs) :
    ∀ s0 : Style, LoneBlock (.outOfFlowAbsolutelyPositionedBox (absoluteBox C s ks).1 (absoluteBox C s ks).2)
      (containerOf C s0 cs).1 := by
  induction h with
  | here =>
    intro s0
    have e : (containerOf C s0 [.elem id s .block ins ks]).1 = .blockLevelBoxes
        [.outOfFlowAbsolutelyPositionedBox (absoluteBox C s ks).1 (absoluteBox C s ks).2] := by
      conv_lhs => unfold containerOf
      simp only [putAll, Styled.put]
      rw [if_pos (show (s.val .position).isAbsolutelyPositioned = true from ha)]
      rfl
    rw [e]
    exact .here
  | inside id' s' ins' cs hs ho h ih =>
    intro s0
    rw [containerOf_only C s0 ho]
    cases ins' with
    | flow => exact .same _ _ hs (ih s')
    | flowRoot => exact .independent _ _ _ hs (ih s')

end Sinab
