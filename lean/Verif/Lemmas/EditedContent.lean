import Verif.Spec.EditedContent
import Verif.Spec.Edited
import Verif.Lemmas.AppendContent
import Verif.Lemmas.ConstructInk

/-! Boxes of a document in which the words of one paragraph are edited (C93). -/

namespace Sinab

open Sinab.Append

/-! ## Unwrapping -/

mutual

theorem put_unwrap {C C' : BoxContext} (hC : C.fontOf = C'.fontOf) (cst : Style) (inl : Bool) :
    ∀ (c : Styled) (f g : Flow), f.Same g → (c.put C cst inl f).Same (putAll C' cst inl c.unwrap g)
  | .other, f, g, h => h
  | .hidden id, f, g, h => ⟨h.1, h.2, h.3⟩
  | .text st t, f, g, h => by
    refine ⟨h.1, ?_, h.3⟩
    simp only [Styled.put, Styled.unwrap, putAll, h.inl]
    exact textInto_font hC st t _
  | .contents id ks, f, g, h => by
    rw [Styled.unwrap, Styled.put]
    exact putAll_unwrap hC cst inl ks _ _ ⟨h.1, h.2, h.3⟩
  | .elem id st .inline ins ks, f, g, h => by
    have hr := putAll_unwrap hC cst true ks
      ((({ f with inl := [] } : Flow).note id ⟨none, true⟩).claim id)
      ((({ g with inl := [] } : Flow).note 0 ⟨none, true⟩).claim 0) ⟨h.1, rfl, h.3⟩
    simp only [Styled.put, Styled.unwrap, putAll]
    refine ⟨hr.1, ?_, hr.3⟩
    have := hr.inl
    simp only [Flow.note] at this ⊢
    rw [h.inl, this]
  | .elem id st .block ins ks, f, g, h => by
    obtain ⟨c1, c2⟩ := (putAll_unwrap hC st false ks Flow.empty Flow.empty (Flow.Same.refl _)).container st
    have h0 : ((f.note id ⟨none, true⟩).claim id).Same ((g.note 0 ⟨none, true⟩).claim 0) :=
      ⟨h.1, h.2, h.3⟩
    have hi : ((f.note id ⟨none, true⟩).claim id).inl = ((g.note 0 ⟨none, true⟩).claim 0).inl := h.2
    simp only [Styled.put, Styled.unwrap, putAll, c1, c2, hi]
    split
    · split
      · exact ⟨h.1, by simp only [Flow.push, Flow.absorb, Flow.note, Flow.claim, h.inl], h.3⟩
      · exact h0.pushBlk rfl rfl
    · split
      · split
        · exact ⟨h.1, by simp only [Flow.push, Flow.absorb, Flow.note, Flow.claim, h.inl], rfl⟩
        · exact ⟨by simp [Flow.pushBlk, h0.blocks], rfl, rfl⟩
      · split
        · exact (h0.flush cst).pushBlk rfl rfl
        · exact (h0.flush cst).pushBlk rfl rfl

theorem putAll_unwrap {C C' : BoxContext} (hC : C.fontOf = C'.fontOf) (cst : Style) (inl : Bool) :
    ∀ (cs : List Styled) (f g : Flow), f.Same g → (putAll C cst inl cs f).Same (putAll C' cst inl (unwrapAll cs) g)
  | [], f, g, h => h
  | c :: cs, f, g, h => by
    rw [unwrapAll, putAll, putAll_append]
    exact putAll_unwrap hC cst inl cs _ _ (put_unwrap hC cst inl c f g h)

end

theorem containerOf_unwrap {C C' : BoxContext} (hC : C.fontOf = C'.fontOf) (st : Style) (cs : List Styled) :
    (containerOf C st cs).1 = (containerOf C' st (unwrapAll cs)).1 :=
  ((putAll_unwrap hC st false cs Flow.empty Flow.empty (Flow.Same.refl _)).container st).1

mutual

theorem notHidden_unwrap : ∀ (c x : Styled) (id : NodeId), x ∈ c.unwrap → x ≠ .hidden id
  | .other, x, id, h => by simp [Styled.unwrap] at h
  | .hidden _, x, id, h => by simp [Styled.unwrap] at h
  | .text st t, x, id, h => by
    simp only [Styled.unwrap, List.mem_singleton] at h
    simp [h]
  | .contents _ ks, x, id, h => notHidden_unwrapAll ks x id h
  | .elem _ st _ _ ks, x, id, h => by
    simp only [Styled.unwrap, List.mem_singleton] at h
    simp [h]

theorem notHidden_unwrapAll : ∀ (cs : List Styled) (x : Styled) (id : NodeId), x ∈ unwrapAll cs → x ≠ .hidden id
  | [], x, id, h => by simp [unwrapAll] at h
  | c :: cs, x, id, h => by
    simp only [unwrapAll, List.mem_append] at h
    rcases h with h | h
    · exact notHidden_unwrap c x id h
    · exact notHidden_unwrapAll cs x id h

end

theorem endsHidden_unwrap (cs : List Styled) : endsHidden (unwrapAll cs) = false := by
  unfold endsHidden
  split
  · rename_i id h
    exact absurd rfl (notHidden_unwrapAll cs _ id (List.mem_of_getLast? h))
  · rfl

mutual

theorem good_unwrap : ∀ (c : Styled) (inl : Bool), c.good inl = true → goodAll inl c.unwrap = true
  | .other, _, _ => rfl
  | .hidden _, _, _ => rfl
  | .text st t, inl, h => by
    simp only [Styled.unwrap, goodAll, Bool.and_true]
    exact h
  | .contents _ ks, inl, h => by
    simp only [Styled.good, Bool.and_eq_true] at h
    exact goodAll_unwrap ks inl h.2
  | .elem _ st .inline .flow ks, inl, h => by
    simp only [Styled.good, Bool.and_eq_true] at h
    simp only [Styled.unwrap, goodAll, Styled.good, Bool.and_true, Bool.and_eq_true]
    exact ⟨by rw [endsHidden_unwrap]; rfl, goodAll_unwrap ks true h.2⟩
  | .elem _ st .inline .flowRoot ks, inl, h => by simp [Styled.good] at h
  | .elem _ st .block ins ks, inl, h => by
    simp only [Styled.good, Bool.and_eq_true] at h
    simp only [Styled.unwrap, goodAll, Styled.good, Bool.and_true, Bool.and_eq_true]
    exact ⟨h.1, by rw [endsHidden_unwrap]; rfl, goodAll_unwrap ks false h.2.2⟩

theorem goodAll_unwrap : ∀ (cs : List Styled) (inl : Bool), goodAll inl cs = true → goodAll inl (unwrapAll cs) = true
  | [], _, _ => rfl
  | c :: cs, inl, h => by
    simp only [goodAll, Bool.and_eq_true] at h
    rw [unwrapAll, goodAll_more]
    exact ⟨good_unwrap c inl h.1, goodAll_unwrap cs inl h.2⟩

end

theorem goodContent_unwrap {cs : List Styled} (h : goodContent cs = true) : goodContent (unwrapAll cs) = true := by
  simp only [goodContent, Bool.and_eq_true] at h ⊢
  exact ⟨by rw [endsHidden_unwrap]; rfl, goodAll_unwrap cs false h.2⟩

/-! ## The same content put after different blocks -/

theorem boxesOf_note (f : Flow) (id : NodeId) (c : LayoutCell) : boxesOf (f.note id c) = boxesOf f := rfl
theorem boxesOf_claim (f : Flow) (id : NodeId) : boxesOf (f.claim id) = boxesOf f := rfl
theorem boxesOf_pushBlk (f : Flow) (b : Blk) : boxesOf (f.pushBlk b) = boxesOf f ++ [b.box] := by
  simp [boxesOf, Flow.pushBlk]

theorem flush_inl (cst : Style) (f : Flow) : (f.flush cst).inl = [] := by
  unfold Flow.flush
  cases h : f.inl with
  | nil => simp [h]
  | cons a l => simp

/-- two builders with the same inline content, to which the same blocks and inline content were added -/
def Uniform (f f' g g' : Flow) : Prop :=
  ∃ D, boxesOf g = boxesOf f ++ D ∧ boxesOf g' = boxesOf f' ++ D ∧ g.inl = g'.inl

theorem Uniform.refl {f f' : Flow} (h : f.inl = f'.inl) : Uniform f f' f f' := ⟨[], by simp, by simp, h⟩

theorem Uniform.trans {f f' g g' k k' : Flow} (h : Uniform f f' g g') (h' : Uniform g g' k k') : Uniform f f' k k' := by
  obtain ⟨D, h1, h2, h3⟩ := h
  obtain ⟨D', h1', h2', h3'⟩ := h'
  exact ⟨D ++ D', by rw [h1', h1, List.append_assoc], by rw [h2', h2, List.append_assoc], h3'⟩

theorem Uniform.flush {f f' : Flow} (cst : Style) (h : f.inl = f'.inl) :
    Uniform f f' (f.flush cst) (f'.flush cst) :=
  ⟨_, boxesOf_flush cst f, by rw [boxesOf_flush, h], by rw [flush_inl, flush_inl]⟩

theorem Uniform.push {f f' g g' : Flow} (h : Uniform f f' g g') {b b' : Blk} (hb : b.box = b'.box) :
    Uniform f f' (g.pushBlk b) (g'.pushBlk b') := by
  obtain ⟨D, h1, h2, h3⟩ := h
  exact ⟨D ++ [b.box], by rw [boxesOf_pushBlk, h1, List.append_assoc], by rw [boxesOf_pushBlk, h2, List.append_assoc, hb], h3⟩

mutual

theorem put_uniform (C : BoxContext) (cst : Style) : ∀ (c : Styled) (inl : Bool) (f f' : Flow), f.inl = f'.inl →
    Uniform f f' (c.put C cst inl f) (c.put C cst inl f')
  | .other, inl, f, f', h => .refl h
  | .hidden id, inl, f, f', h => ⟨[], by simp [Styled.put, boxesOf, Flow.note, Flow.claim],
      by simp [Styled.put, boxesOf, Flow.note, Flow.claim], h⟩
  | .text st t, inl, f, f', h => ⟨[], by simp [Styled.put, boxesOf], by simp [Styled.put, boxesOf], by
      simp only [Styled.put, h]⟩
  | .contents id ks, inl, f, f', h => by
    rw [Styled.put, Styled.put]
    exact putAll_uniform C cst ks inl ((f.note id ⟨some .displayContents, false⟩).claim id)
      ((f'.note id ⟨some .displayContents, false⟩).claim id) h
  | .elem id st .inline ins ks, inl, f, f', h => by
    obtain ⟨D, h1, h2, h3⟩ := putAll_uniform C cst ks true
      ((({ f with inl := [] } : Flow).note id ⟨none, true⟩).claim id)
      ((({ f' with inl := [] } : Flow).note id ⟨none, true⟩).claim id) rfl
    refine ⟨D, h1, h2, ?_⟩
    simp only [Styled.put, Flow.note] at h3 ⊢
    rw [h, h3]
  | .elem id st .block ins ks, inl, f, f', h => by
    have h0 : ((f.note id ⟨none, true⟩).claim id).inl = ((f'.note id ⟨none, true⟩).claim id).inl := h
    have u0 : Uniform f f' ((f.note id ⟨none, true⟩).claim id) ((f'.note id ⟨none, true⟩).claim id) :=
      ⟨[], by simp [boxesOf, Flow.note, Flow.claim], by simp [boxesOf, Flow.note, Flow.claim], h⟩
    have u1 := u0.trans (Uniform.flush cst h0)
    simp only [Styled.put, h0]
    split
    · split
      · exact ⟨[], by simp [boxesOf, Flow.push, Flow.absorb, Flow.note, Flow.claim],
          by simp [boxesOf, Flow.push, Flow.absorb, Flow.note, Flow.claim], by
          simp only [Flow.push, Flow.absorb, Flow.note, Flow.claim, h]⟩
      · exact u0.push rfl
    · split
      · split
        · exact ⟨[], by simp [boxesOf, Flow.push, Flow.absorb, Flow.note, Flow.claim],
            by simp [boxesOf, Flow.push, Flow.absorb, Flow.note, Flow.claim], by
            simp only [Flow.push, Flow.absorb, Flow.note, Flow.claim, h]⟩
        · exact ⟨_, boxesOf_pushBlk _ _, boxesOf_pushBlk _ _, rfl⟩
      · split
        · exact u1.push rfl
        · exact u1.push rfl

theorem putAll_uniform (C : BoxContext) (cst : Style) : ∀ (cs : List Styled) (inl : Bool) (f f' : Flow), f.inl = f'.inl →
    Uniform f f' (putAll C cst inl cs f) (putAll C cst inl cs f')
  | [], inl, f, f', h => .refl h
  | c :: cs, inl, f, f', h => by
    have h1 := put_uniform C cst c inl f f' h
    exact h1.trans (putAll_uniform C cst cs inl _ _ h1.choose_spec.2.2)

end

/-! ## Paragraphs -/

theorem addRun_ne (C : BoxContext) (st : Style) (t : Text) (l : List InlineLevelBox) :
    (l ≠ [] → addRun C st t l ≠ []) ∧ (t ≠ [] → addRun C st t l ≠ []) := by
  refine ⟨longerInlines_ne (addRun_grows C st t l), fun ht => ?_⟩
  unfold addRun
  rw [if_neg ht]
  rcases appendText_cases C st t l with ⟨s, old, f, pre, rfl, e⟩ | ⟨-, e⟩ <;> rw [e] <;> simp

theorem squeeze_ne {t : Text} (b : Bool) (h : (t.any fun c => !htmlSpace c) = true) : squeeze b t ≠ [] := by
  intro e
  have := squeeze_visible t b
  rw [e] at this
  simp only [visible] at this
  rw [List.any_eq_true] at h
  obtain ⟨c, hc, hv⟩ := h
  have h2 : c ∈ t.filter (fun c => !htmlSpace c) := List.mem_filter.2 ⟨hc, hv⟩
  simp at this
  simp_all

mutual

theorem put_linear (C : BoxContext) (cst : Style) : ∀ (c : Styled) (inl : Bool) (f : Flow), c.linear = true →
    boxesOf (c.put C cst inl f) = boxesOf f ∧ (f.inl ≠ [] → (c.put C cst inl f).inl ≠ []) ∧
    (c.makesLine = true → (c.put C cst inl f).inl ≠ [])
  | .other, inl, f, h => by simp [Styled.linear] at h
  | .hidden id, inl, f, h => by simp [Styled.linear] at h
  | .contents id ks, inl, f, h => by simp [Styled.linear] at h
  | .elem id st .block ins ks, inl, f, h => by simp [Styled.linear] at h
  | .elem id st .inline .flowRoot ks, inl, f, h => by simp [Styled.linear] at h
  | .text st t, inl, f, h => by
    obtain ⟨b, e⟩ := textInto_exact C st f.inl
    simp only [Styled.put, e]
    obtain ⟨h1, h2⟩ := addRun_ne C st (if st.keepsSpace = true then t else squeeze b t) f.inl
    refine ⟨rfl, h1, fun hm => h2 ?_⟩
    simp only [Styled.makesLine] at hm
    split
    · rename_i hk
      rw [if_pos hk] at hm
      simpa using hm
    · rename_i hk
      rw [if_neg hk] at hm
      exact squeeze_ne b hm
  | .elem id st .inline .flow ks, inl, f, h => by
    simp only [Styled.linear] at h
    have := (putAll_linear C cst ks true ((({ f with inl := [] } : Flow).note id ⟨none, true⟩).claim id) h).1
    refine ⟨this, ?_, ?_⟩ <;> simp [Styled.put, Flow.note]

theorem putAll_linear (C : BoxContext) (cst : Style) : ∀ (cs : List Styled) (inl : Bool) (f : Flow), linearAll cs = true →
    boxesOf (putAll C cst inl cs f) = boxesOf f ∧ (f.inl ≠ [] → (putAll C cst inl cs f).inl ≠ []) ∧
    (cs.any Styled.makesLine = true → (putAll C cst inl cs f).inl ≠ [])
  | [], inl, f, h => ⟨rfl, id, by simp⟩
  | c :: cs, inl, f, h => by
    simp only [linearAll, Bool.and_eq_true] at h
    obtain ⟨a1, a2, a3⟩ := put_linear C cst c inl f h.1
    obtain ⟨b1, b2, b3⟩ := putAll_linear C cst cs inl (c.put C cst inl f) h.2
    refine ⟨b1.trans a1, fun k => b2 (a2 k), fun k => ?_⟩
    simp only [List.any_cons, Bool.or_eq_true] at k
    rcases k with k | k
    · exact b2 (a3 k)
    · exact b3 k

end

/-- the inline boxes of a paragraph -/
def paragraphBoxes (C : BoxContext) (st : Style) (ks : List Styled) : List InlineLevelBox :=
  (putAll C st false ks Flow.empty).inl

theorem paragraph_put (C : BoxContext) (st : Style) {ks : List Styled} (hk : isParagraph ks = true) {f : Flow}
    (hf : f.inl = []) : boxesOf (putAll C st false ks f) = boxesOf f ∧
      (putAll C st false ks f).inl = paragraphBoxes C st ks ∧ paragraphBoxes C st ks ≠ [] := by
  simp only [isParagraph, Bool.and_eq_true] at hk
  obtain ⟨h1, -, h3⟩ := putAll_linear C st ks false f hk.1
  have h2 : (putAll C st false ks f).inl = paragraphBoxes C st ks :=
    (putAll_uniform C st ks false f Flow.empty hf).choose_spec.2.2
  exact ⟨h1, h2, h2 ▸ h3 hk.2⟩

theorem paragraph_container (C : BoxContext) (st : Style) {ks : List Styled} (hk : isParagraph ks = true) :
    (containerOf C st ks).1 = .inlineFormattingContext st (paragraphBoxes C st ks) := by
  obtain ⟨h1, -, h3⟩ := paragraph_put C st hk (f := Flow.empty) rfl
  unfold containerOf
  rw [container_eq, if_pos ⟨h3, h1⟩]
  rfl

/-! ## The edit -/

/-- the box of a block in the flow -/
def blockBox (C : BoxContext) (st : Style) (ins : DisplayInside) (ks : List Styled) : BlockLevelBox :=
  match ins with
  | .flow => .sameFormattingContextBlock st (containerOf C st ks).1
  | .flowRoot => .independent st (.mk (containerOf C st ks).1 (containerOf C st ks).2.1)

theorem put_block (C : BoxContext) (cst : Style) {id : NodeId} {st : Style} {ins : DisplayInside} {ks : List Styled}
    (ho : st.outOfFlow = false) (f : Flow) :
    boxesOf ((Styled.elem id st .block ins ks).put C cst false f) =
      boxesOf f ++ (if f.inl = [] then [] else [anonBox cst f.inl]) ++ [blockBox C st ins ks] ∧
    ((Styled.elem id st .block ins ks).put C cst false f).inl = [] := by
  simp only [Style.outOfFlow, Bool.or_eq_false_iff] at ho
  have e := boxesOf_flush cst ((f.note id ⟨none, true⟩).claim id)
  have e2 := flush_inl cst ((f.note id ⟨none, true⟩).claim id)
  simp only [boxesOf_claim, boxesOf_note] at e
  simp only [Styled.put, ho.1, ho.2, Bool.false_eq_true, if_false]
  cases ins with
  | flow => exact ⟨by rw [boxesOf_pushBlk, e]; rfl, e2⟩
  | flowRoot => exact ⟨by rw [boxesOf_pushBlk, e]; rfl, e2⟩

/-- two builders with one edited block -/
def FlowEdited (st : Style) (ibs ibs' : List InlineLevelBox) (around : List Style) (f f' : Flow) : Prop :=
  ∃ X b b' Y, boxesOf f = X ++ b :: Y ∧ boxesOf f' = X ++ b' :: Y ∧ f.inl = f'.inl ∧ EditedBlock st ibs ibs' around b b'

theorem FlowEdited.more {st : Style} {ibs ibs' : List InlineLevelBox} {around : List Style} {f f' g g' : Flow}
    (h : FlowEdited st ibs ibs' around f f') (hu : Uniform f f' g g') : FlowEdited st ibs ibs' around g g' := by
  obtain ⟨X, b, b', Y, h1, h2, -, h4⟩ := h
  obtain ⟨D, u1, u2, u3⟩ := hu
  exact ⟨X, b, b', Y ++ D, by rw [u1, h1]; simp, by rw [u2, h2]; simp, u3, h4⟩

theorem FlowEdited.inl {st : Style} {ibs ibs' : List InlineLevelBox} {around : List Style} {f f' : Flow}
    (h : FlowEdited st ibs ibs' around f f') : f.inl = f'.inl := by
  obtain ⟨X, b, b', Y, h1, h2, h3, h4⟩ := h
  exact h3

theorem FlowEdited.container {st : Style} {ibs ibs' : List InlineLevelBox} {around : List Style} {f f' : Flow}
    (h : FlowEdited st ibs ibs' around f f') (cst : Style) :
    Edited st ibs ibs' around (f.container cst).1 (f'.container cst).1 := by
  obtain ⟨X, b, b', Y, h1, h2, h3, h4⟩ := h
  have n : ∀ c, ¬ (f'.inl ≠ [] ∧ X ++ c :: Y = []) := fun c => by simp
  rw [container_eq, container_eq, h1, h2, h3, if_neg (n b), if_neg (n b'), List.append_assoc, List.append_assoc,
    List.cons_append, List.cons_append]
  exact .blocks _ _ _ _ _ h4

theorem putAll_endBlock (C : BoxContext) (cst : Style) {A : List Styled} {f : Flow} (hf : f.inl = [])
    (hA : ∀ x ∈ A.getLast?, x.inFlowBlock = true) : (putAll C cst false A f).inl = [] := by
  rcases List.eq_nil_or_concat A with rfl | ⟨A, x, rfl⟩
  · exact hf
  · have := hA x (by simp)
    rw [List.concat_eq_append, putAll_append, putAll, putAll]
    match x, this with
    | .elem id s .block ins ks, h => exact (put_block C cst (by simpa [Styled.inFlowBlock] using h) _).2
    | .other, h => simp [Styled.inFlowBlock] at h
    | .hidden _, h => simp [Styled.inFlowBlock] at h
    | .text _ _, h => simp [Styled.inFlowBlock] at h
    | .contents _ _, h => simp [Styled.inFlowBlock] at h
    | .elem id s .inline ins ks, h => simp [Styled.inFlowBlock] at h

theorem anonymous_height (p : Option Style) : (Style.anonymousInheritingFrom p).val .height = .auto := rfl

theorem containerOf_edited (C : BoxContext) {st : Style} {ks ks' : List Styled} (hk : isParagraph ks = true)
    (hk' : isParagraph ks' = true) {s0 : Style} {around : List Style} {cs cs' : List Styled}
    (h : EditedContent st ks ks' s0 around cs cs') :
    ∃ around', ((∀ s ∈ around, s.val .height = .auto) → ∀ s ∈ around', s.val .height = .auto) ∧
      Edited st (paragraphBoxes C st ks) (paragraphBoxes C st ks') around' (containerOf C s0 cs).1
        (containerOf C s0 cs').1 := by
  induction h with
  | here A B hA hB =>
    have hi := putAll_endBlock C st (f := Flow.empty) rfl hA
    obtain ⟨p1, p2, p3⟩ := paragraph_put C st hk hi
    obtain ⟨p1', p2', p3'⟩ := paragraph_put C st hk' hi
    have anon : EditedBlock st (paragraphBoxes C st ks) (paragraphBoxes C st ks')
        [Style.anonymousInheritingFrom (some st)] (anonBox st (paragraphBoxes C st ks))
        (anonBox st (paragraphBoxes C st ks')) := .same _ _ _ _ .para
    have auto : ∀ s ∈ [Style.anonymousInheritingFrom (some st)], s.val .height = .auto := by
      simp only [List.mem_singleton, forall_eq]
      exact anonymous_height _
    unfold containerOf
    simp only [putAll_append]
    generalize putAll C st false A Flow.empty = f0 at *
    generalize putAll C st false ks f0 = f at *
    generalize putAll C st false ks' f0 = f' at *
    cases B with
    | nil =>
      simp only [putAll]
      rw [container_eq, container_eq, p1, p1', p2, p2']
      by_cases hX : boxesOf f0 = []
      · rw [if_pos ⟨p3, hX⟩, if_pos ⟨p3', hX⟩]
        exact ⟨[], fun h => by simp, .para⟩
      · have n : ∀ l : List InlineLevelBox, ¬ (l ≠ [] ∧ boxesOf f0 = []) := fun _ h => hX h.2
        rw [if_neg (n _), if_neg (n _), if_neg p3, if_neg p3']
        exact ⟨_, fun _ => auto, .blocks _ _ _ _ _ anon⟩
    | cons x B =>
      have hx := hB x (by simp)
      match x, hx with
      | .elem id s .block ins ls, hx =>
        have ho : s.outOfFlow = false := by simpa [Styled.inFlowBlock] using hx
        obtain ⟨q1, q2⟩ := put_block C st (id := id) (ins := ins) (ks := ls) ho f
        obtain ⟨q1', q2'⟩ := put_block C st (id := id) (ins := ins) (ks := ls) ho f'
        rw [p1, p2, if_neg p3] at q1
        rw [p1', p2', if_neg p3'] at q1'
        have := FlowEdited.more ⟨_, _, _, _, by simpa using q1, by simpa using q1', q2.trans q2'.symm, anon⟩
          (putAll_uniform C st B false _ _ (q2.trans q2'.symm))
        exact ⟨_, fun _ => auto, this.container st⟩
      | .other, h => simp [Styled.inFlowBlock] at h
      | .hidden _, h => simp [Styled.inFlowBlock] at h
      | .text _ _, h => simp [Styled.inFlowBlock] at h
      | .contents _ _, h => simp [Styled.inFlowBlock] at h
      | .elem id s .inline ins ks, h => simp [Styled.inFlowBlock] at h
  | block s0 around A B id s ins cs cs' ho h ih =>
    obtain ⟨around', ha, hE⟩ := ih
    refine ⟨s :: around', fun h => by
      simp only [List.mem_cons, forall_eq_or_imp] at h ⊢
      exact ⟨h.1, ha h.2⟩, ?_⟩
    unfold containerOf
    rw [putAll_append, putAll_append, putAll, putAll]
    obtain ⟨q1, q2⟩ := put_block C s0 (id := id) (ins := ins) (ks := cs) ho (putAll C s0 false A Flow.empty)
    obtain ⟨q1', q2'⟩ := put_block C s0 (id := id) (ins := ins) (ks := cs') ho (putAll C s0 false A Flow.empty)
    have hb : EditedBlock st (paragraphBoxes C st ks) (paragraphBoxes C st ks') (s :: around')
        (blockBox C s ins cs) (blockBox C s ins cs') := by
      cases ins with
      | flow => exact .same _ _ _ _ hE
      | flowRoot => exact .independent _ _ _ _ _ _ hE
    have := FlowEdited.more ⟨_, _, _, _, q1, q1', q2.trans q2'.symm, hb⟩
      (putAll_uniform C s0 B false _ _ (q2.trans q2'.symm))
    exact this.container s0

/-- the content of a paragraph in content that can be handled can be handled -/
theorem EditedContent.good {st : Style} {ks ks' : List Styled} {s0 : Style} {around : List Style} {cs cs' : List Styled}
    (h : EditedContent st ks ks' s0 around cs cs') : (goodAll false cs = true → goodAll false ks = true) ∧
      (goodAll false cs' = true → goodAll false ks' = true) := by
  induction h with
  | here A B hA hB => exact ⟨fun h => (goodAll_more.1 (goodAll_more.1 h).2).1, fun h => (goodAll_more.1 (goodAll_more.1 h).2).1⟩
  | block s0 around A B id s ins cs cs' ho h ih =>
    refine ⟨fun h => ih.1 ?_, fun h => ih.2 ?_⟩ <;>
    · have := (goodAll_more.1 h).2
      simp only [goodAll, Styled.good, Bool.and_eq_true] at this
      exact this.1.2.2

theorem linear_endsHidden : ∀ (ks : List Styled), linearAll ks = true → endsHidden ks = false := by
  intro ks h
  rcases List.eq_nil_or_concat ks with rfl | ⟨A, x, rfl⟩
  · rfl
  · have : ∀ (l : List Styled), linearAll (l ++ [x]) = true → x.linear = true := by
      intro l
      induction l with
      | nil => simp [linearAll]
      | cons c l ih => simp only [List.cons_append, linearAll, Bool.and_eq_true]; exact fun h => ih h.2
    rw [List.concat_eq_append] at h ⊢
    have := this A h
    unfold endsHidden
    simp only [List.getLast?_append, List.getLast?_singleton, Option.some_or]
    cases x <;> simp_all [Styled.linear]

/-- the characters of the boxes of a paragraph -/
theorem paragraph_ink (C : BoxContext) (st : Style) {ks : List Styled} (hk : isParagraph ks = true)
    (hg : goodAll false ks = true) (hu : uniformAll st false ks = true) :
    inlineInk (paragraphBoxes C st ks) = inkOf C.fontOf ks := by
  have hl : linearAll ks = true := by
    simp only [isParagraph, Bool.and_eq_true] at hk
    exact hk.1
  have := containerOf_ink C st (cs := ks) (by
    simp only [goodContent, Bool.and_eq_true]
    exact ⟨by rw [linear_endsHidden ks hl]; rfl, hg⟩) hu
  rw [paragraph_container C st hk] at this
  exact this

/-! ## Nothing is absolutely positioned -/

/-- see `Styled.unlifted` -/
structure Unlifted (f : Flow) : Prop where
  blocks : blocksNoAbs (boxesOf f)
  inl : inlinesNoAbs f.inl

theorem textInto_unlifted {C : BoxContext} {st : Style} {t : Text} {l : List InlineLevelBox}
    (h : inlinesNoAbs l) : inlinesNoAbs (textInto C st t l) := by
  obtain ⟨b, e⟩ := textInto_exact C st l
  rw [e]
  generalize (if st.keepsSpace then t else squeeze b t) = t
  unfold addRun
  split
  · exact h
  · rcases appendText_cases C st t l with ⟨s, old, f, pre, rfl, e⟩ | ⟨-, e⟩
    · rw [e]
      simpa [inlinesNoAbs_append, inlinesNoAbs, inlineNoAbs] using h
    · rw [e]
      simpa [inlinesNoAbs_append, inlinesNoAbs, inlineNoAbs] using h

theorem Unlifted.flush {f : Flow} (h : Unlifted f) (cst : Style) : Unlifted (f.flush cst) := by
  have e := boxesOf_flush cst f
  refine ⟨?_, by rw [flush_inl]; trivial⟩
  rw [e, blocksNoAbs_append]
  refine ⟨h.blocks, ?_⟩
  split
  · trivial
  · exact ⟨h.inl, trivial⟩

theorem Unlifted.pushBlk {f : Flow} (h : Unlifted f) {b : Blk} (hb : blockNoAbs b.box) : Unlifted (f.pushBlk b) := by
  refine ⟨?_, h.inl⟩
  rw [boxesOf_pushBlk, blocksNoAbs_append]
  exact ⟨h.blocks, hb, trivial⟩

theorem Unlifted.container {f : Flow} (h : Unlifted f) (cst : Style) : noAbs (f.container cst).1 := by
  unfold Flow.container
  split
  · exact h.inl
  · exact (h.flush cst).blocks

mutual

theorem put_unlifted (C : BoxContext) : ∀ (c : Styled) (cst : Style) (inl : Bool) (f : Flow), c.unlifted = true →
    Unlifted f → Unlifted (c.put C cst inl f)
  | .other, _, _, f, _, h => h
  | .hidden id, _, _, f, _, h => ⟨h.1, h.2⟩
  | .text st t, _, _, f, _, h => ⟨h.1, textInto_unlifted h.inl⟩
  | .contents id ks, cst, inl, f, hs, h => by
    simp only [Styled.unlifted] at hs
    rw [Styled.put]
    exact putAll_unlifted C ks cst inl ((f.note id ⟨some .displayContents, false⟩).claim id) hs ⟨h.1, h.2⟩
  | .elem id st .inline _ ks, cst, inl, f, hs, h => by
    simp only [Styled.unlifted] at hs
    have := putAll_unlifted C ks cst true ((({ f with inl := [] } : Flow).note id ⟨none, true⟩).claim id) hs
      ⟨h.1, trivial⟩
    refine ⟨this.1, ?_⟩
    simp only [Styled.put, Flow.note, inlinesNoAbs_append, inlinesNoAbs, inlineNoAbs, and_true]
    exact ⟨h.inl, this.inl⟩
  | .elem id st .block ins ks, cst, inl, f, hs, h => by
    simp only [Styled.unlifted, Bool.and_eq_true, Bool.not_eq_true'] at hs
    have hr := (putAll_unlifted C ks st false Flow.empty hs.2 ⟨trivial, trivial⟩).container st
    simp only [Styled.put, hs.1, Bool.false_eq_true, if_false]
    split
    · split
      · refine ⟨h.1, ?_⟩
        simp only [Flow.note, Flow.absorb, Flow.push, inlinesNoAbs_append, inlinesNoAbs, inlineNoAbs, bfcNoAbs, and_true]
        exact ⟨h.inl, hr⟩
      · apply Unlifted.pushBlk
        · exact ⟨h.1, h.2⟩
        · simpa only [blockNoAbs, bfcNoAbs] using hr
    · have hf : Unlifted (((f.note id ⟨none, true⟩).claim id).flush cst) := by
        apply Unlifted.flush
        exact ⟨h.1, h.2⟩
      split
      · refine hf.pushBlk ?_
        simpa only [blockNoAbs, bfcNoAbs] using hr
      · refine hf.pushBlk ?_
        simpa only [blockNoAbs, bfcNoAbs] using hr

theorem putAll_unlifted (C : BoxContext) : ∀ (cs : List Styled) (cst : Style) (inl : Bool) (f : Flow),
    unliftedAll cs = true → Unlifted f → Unlifted (putAll C cst inl cs f)
  | [], _, _, f, _, h => h
  | c :: cs, cst, inl, f, hs, h => by
    simp only [unliftedAll, Bool.and_eq_true] at hs
    exact putAll_unlifted C cs cst inl _ hs.2 (put_unlifted C c cst inl f hs.1 h)

end

theorem containerOf_unlifted (C : BoxContext) (st : Style) {cs : List Styled} (h : unliftedAll cs = true) :
    noAbs (containerOf C st cs).1 :=
  (putAll_unlifted C cs st false Flow.empty h ⟨trivial, trivial⟩).container st

end Sinab
