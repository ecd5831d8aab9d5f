import Verif.Spec.GroupedContent
import Verif.Lemmas.EditedContent

/-! Boxes of a document in which consecutive blocks are put in an element of their own (C94). -/

namespace Sinab

open Sinab.Append

/-! ## The boxes of consecutive blocks -/

theorem squeeze_spaces : ∀ (t : Text), t.all htmlSpace = true → squeeze true t = []
  | [], _ => rfl
  | c :: t, h => by
    simp only [List.all_cons, Bool.and_eq_true] at h
    simp [squeeze, h.1, squeeze_spaces t h.2]

theorem blank_text (C : BoxContext) {st : Style} {t : Text} (hk : st.keepsSpace = false) (ht : t.all htmlSpace = true) :
    textInto C st t [] = [] := by
  have hc := textInto_collapse C st t []
  have hl : leadingLoop (inlineSteps [] + 1) [].reverse [] = false := by decide +kernel
  rw [hl] at hc
  unfold Style.keepsSpace at hk
  unfold textInto
  split <;> simp_all [squeeze_spaces, addRun]

/-- the box of a block in the flow -/
def Styled.blockBox (C : BoxContext) : Styled → BlockLevelBox
  | .elem _ s _ ins ks => Sinab.blockBox C s ins ks
  | _ => .sameFormattingContextBlock Style.initial (.blockLevelBoxes [])

theorem put_inFlow (C : BoxContext) (cst : Style) : ∀ (x : Styled), x.inFlowBlock = true → ∀ f : Flow,
    boxesOf (x.put C cst false f) = boxesOf f ++ (if f.inl = [] then [] else [anonBox cst f.inl]) ++ [x.blockBox C] ∧
      (x.put C cst false f).inl = []
  | .elem id s .block ins ks, h, f => put_block C cst (by simpa [Styled.inFlowBlock] using h) f
  | .other, h, _ => by simp [Styled.inFlowBlock] at h
  | .hidden _, h, _ => by simp [Styled.inFlowBlock] at h
  | .text _ _, h, _ => by simp [Styled.inFlowBlock] at h
  | .contents _ _, h, _ => by simp [Styled.inFlowBlock] at h
  | .elem _ _ .inline _ _, h, _ => by simp [Styled.inFlowBlock] at h

theorem put_blank (C : BoxContext) (cst : Style) : ∀ (x : Styled), x.blank = true → ∀ f : Flow, f.inl = [] →
    boxesOf (x.put C cst false f) = boxesOf f ∧ (x.put C cst false f).inl = []
  | .text st t, h, f, hf => by
    simp only [Styled.blank, Bool.and_eq_true, Bool.not_eq_true'] at h
    refine ⟨rfl, ?_⟩
    simp only [Styled.put, hf]
    exact blank_text C h.1 h.2
  | .other, h, _, _ => by simp [Styled.blank] at h
  | .hidden _, h, _, _ => by simp [Styled.blank] at h
  | .elem _ _ _ _ _, h, _, _ => by simp [Styled.blank] at h
  | .contents _ _, h, _, _ => by simp [Styled.blank] at h

theorem blank_notBlock : ∀ (x : Styled), x.blank = true → x.inFlowBlock = false
  | .text _ _, _ => rfl
  | .other, _ => rfl
  | .hidden _, _ => rfl
  | .contents _ _, _ => rfl
  | .elem _ _ _ _ _, h => by simp [Styled.blank] at h

theorem putAll_inFlow (C : BoxContext) (cst : Style) : ∀ (L : List Styled) (f : Flow), blocksOnly L = true → f.inl = [] →
    boxesOf (putAll C cst false L f) = boxesOf f ++ (L.filter Styled.inFlowBlock).map (Styled.blockBox C) ∧
      (putAll C cst false L f).inl = []
  | [], f, _, hf => ⟨by simp [putAll], hf⟩
  | x :: L, f, h, hf => by
    have h2 : blocksOnly L = true := by
      simp only [blocksOnly, List.all_cons, Bool.and_eq_true] at h
      exact h.2
    have h1 : x.inFlowBlock = true ∨ x.blank = true := by
      simp only [blocksOnly, List.all_cons, Bool.and_eq_true, Bool.or_eq_true] at h
      exact h.1
    rw [putAll]
    rcases h1 with h1 | h1
    · obtain ⟨e1, e2⟩ := put_inFlow C cst x h1 f
      obtain ⟨e3, e4⟩ := putAll_inFlow C cst L _ h2 e2
      rw [e3, e1, hf]
      exact ⟨by simp [h1], e4⟩
    · obtain ⟨e1, e2⟩ := put_blank C cst x h1 f hf
      obtain ⟨e3, e4⟩ := putAll_inFlow C cst L _ h2 e2
      rw [e3, e1]
      exact ⟨by simp [blank_notBlock x h1], e4⟩

theorem putAll_inFlow_start (C : BoxContext) (cst : Style) {L : List Styled} (hs : ∃ x ∈ L.head?, x.inFlowBlock = true)
    (h : blocksOnly L = true) (f : Flow) :
    boxesOf (putAll C cst false L f) = boxesOf f ++ (if f.inl = [] then [] else [anonBox cst f.inl]) ++
        (L.filter Styled.inFlowBlock).map (Styled.blockBox C) ∧ (putAll C cst false L f).inl = [] := by
  obtain ⟨x, hx, hb⟩ := hs
  cases L with
  | nil => simp at hx
  | cons y L =>
    simp only [List.head?_cons, Option.mem_some] at hx
    subst hx
    have h2 : blocksOnly L = true := by
      simp only [blocksOnly, List.all_cons, Bool.and_eq_true] at h
      exact h.2
    obtain ⟨e1, e2⟩ := put_inFlow C cst y hb f
    obtain ⟨e3, e4⟩ := putAll_inFlow C cst L _ h2 e2
    rw [putAll, e3, e1]
    exact ⟨by simp [hb], e4⟩

theorem containerOf_blocks (C : BoxContext) (st : Style) {L : List Styled} (h : blocksOnly L = true) :
    (containerOf C st L).1 = .blockLevelBoxes ((L.filter Styled.inFlowBlock).map (Styled.blockBox C)) := by
  obtain ⟨e1, e2⟩ := putAll_inFlow C st L Flow.empty h rfl
  unfold containerOf
  rw [container_eq, e1, e2]
  simp [boxesOf, Flow.empty]

/-! ## The grouping -/

/-- two builders that differ as in `Grouped` -/
def FlowGrouped (ok : List BlockLevelBox → Prop) (f f' : Flow) : Prop :=
  f.inl = f'.inl ∧ boxesOf f ≠ [] ∧ boxesOf f' ≠ [] ∧
    ∀ D, Grouped ok (.blockLevelBoxes (boxesOf f ++ D)) (.blockLevelBoxes (boxesOf f' ++ D))

theorem FlowGrouped.more {ok : List BlockLevelBox → Prop} {f f' g g' : Flow} (h : FlowGrouped ok f f')
    (hu : Uniform f f' g g') : FlowGrouped ok g g' := by
  obtain ⟨h1, h2, h3, h4⟩ := h
  obtain ⟨D, u1, u2, u3⟩ := hu
  refine ⟨u3, by rw [u1]; simp [h2], by rw [u2]; simp [h3], fun D' => ?_⟩
  rw [u1, u2, List.append_assoc, List.append_assoc]
  exact h4 _

theorem FlowGrouped.container {ok : List BlockLevelBox → Prop} {f f' : Flow} (h : FlowGrouped ok f f') (cst : Style) :
    Grouped ok (f.container cst).1 (f'.container cst).1 := by
  obtain ⟨h1, h2, h3, h4⟩ := h
  have n : ¬ (f'.inl ≠ [] ∧ boxesOf f = []) := fun k => h2 k.2
  have n' : ¬ (f'.inl ≠ [] ∧ boxesOf f' = []) := fun k => h3 k.2
  rw [container_eq, container_eq, h1, if_neg n, if_neg n']
  exact h4 _

theorem containerOf_grouped (C : BoxContext) {ok : List Styled → Prop} {ok' : List BlockLevelBox → Prop}
    (hok : ∀ L, blocksOnly L = true → ok L → ok' ((L.filter Styled.inFlowBlock).map (Styled.blockBox C))) {cs cs' : List Styled}
    (h : GroupedContent ok cs cs') : ∀ s0 : Style, Grouped ok' (containerOf C s0 cs).1 (containerOf C s0 cs').1 := by
  induction h with
  | here A L L' B id w hw ho hs hL hL' he hk =>
    intro s0
    unfold containerOf
    rw [putAll_append, putAll_append, putAll_append, putAll]
    obtain ⟨p1, p2⟩ := putAll_inFlow_start C s0 hs hL (putAll C s0 false A Flow.empty)
    obtain ⟨q1, q2⟩ := put_block C s0 (id := id) (ins := .flow) (ks := L') ho (putAll C s0 false A Flow.empty)
    have e : blockBox C w .flow L' =
        .sameFormattingContextBlock w (.blockLevelBoxes ((L.filter Styled.inFlowBlock).map (Styled.blockBox C))) := by
      unfold blockBox
      rw [containerOf_blocks C w hL', he]
    rw [e] at q1
    have hne : L.filter Styled.inFlowBlock ≠ [] := by
      obtain ⟨x, hx, hb⟩ := hs
      exact List.ne_nil_of_mem (List.mem_filter.2 ⟨List.mem_of_mem_head? hx, hb⟩)
    refine (FlowGrouped.more ?_ (putAll_uniform C s0 B false _ _ (p2.trans q2.symm))).container s0
    refine ⟨p2.trans q2.symm, by rw [p1]; simp [hne], by rw [q1]; simp, fun D => ?_⟩
    rw [p1, q1]
    generalize boxesOf (putAll C s0 false A Flow.empty) ++ _ = X
    rw [List.append_assoc, List.append_assoc]
    exact .here _ _ _ _ hw (hok _ hL hk)
  | block A B id s ins cs cs' ho h ih =>
    intro s0
    unfold containerOf
    rw [putAll_append, putAll_append, putAll, putAll]
    obtain ⟨q1, q2⟩ := put_block C s0 (id := id) (ins := ins) (ks := cs) ho (putAll C s0 false A Flow.empty)
    obtain ⟨q1', q2'⟩ := put_block C s0 (id := id) (ins := ins) (ks := cs') ho (putAll C s0 false A Flow.empty)
    have hb : GroupedBlock ok' (blockBox C s ins cs) (blockBox C s ins cs') := by
      cases ins with
      | flow => exact .same _ _ _ (ih s)
      | flowRoot => exact .independent _ _ _ _ _ (ih s)
    refine (FlowGrouped.more ?_ (putAll_uniform C s0 B false _ _ (q2.trans q2'.symm))).container s0
    refine ⟨q2.trans q2'.symm, by rw [q1]; simp, by rw [q1']; simp, fun D => ?_⟩
    rw [q1, q1']
    generalize boxesOf (putAll C s0 false A Flow.empty) ++ _ = X
    rw [List.append_assoc, List.append_assoc]
    exact .inside _ _ _ _ hb

/-! ## The styles of the boxes -/

theorem blockStylesAll_append (a b : List BlockLevelBox) :
    blockStylesAll (a ++ b) = blockStylesAll a ++ blockStylesAll b := by
  induction a with
  | nil => rfl
  | cons c a ih => simp [blockStylesAll, ih]

/-- all blocks have a style of a kind -/
def Ruled (P : Style → Prop) (f : Flow) : Prop := ∀ s ∈ blockStylesAll (boxesOf f), P s

theorem Ruled.flush {P : Style → Prop} (hP : ∀ p, P (Style.anonymousInheritingFrom p)) {f : Flow} (h : Ruled P f)
    (cst : Style) : Ruled P (f.flush cst) := by
  unfold Ruled
  rw [boxesOf_flush, blockStylesAll_append]
  intro s hs
  rcases List.mem_append.1 hs with hs | hs
  · exact h s hs
  · split at hs
    · simp [blockStylesAll] at hs
    · simp only [anonBox, blockStylesAll, BlockLevelBox.blockStyles, BlockContainer.blockStyles, List.append_nil,
        List.mem_singleton] at hs
      exact hs ▸ hP _

theorem Ruled.push {P : Style → Prop} {f : Flow} (h : Ruled P f) {b : Blk} (hb : ∀ s ∈ b.box.blockStyles, P s) :
    Ruled P (f.pushBlk b) := by
  unfold Ruled
  rw [boxesOf_pushBlk, blockStylesAll_append]
  intro s hs
  rcases List.mem_append.1 hs with hs | hs
  · exact h s hs
  · simp only [blockStylesAll, List.append_nil] at hs
    exact hb s hs

theorem Ruled.container {P : Style → Prop} (hP : ∀ p, P (Style.anonymousInheritingFrom p)) {f : Flow} (h : Ruled P f)
    (cst : Style) : ∀ s ∈ (f.container cst).1.blockStyles, P s := by
  unfold Flow.container
  split
  · simp [BlockContainer.blockStyles]
  · exact h.flush hP cst

mutual

theorem put_ruled {P : Style → Prop} (hP : ∀ p, P (Style.anonymousInheritingFrom p)) (C : BoxContext) :
    ∀ (c : Styled) (cst : Style) (inl : Bool) (f : Flow), (∀ s ∈ c.blockStyles, P s) → Ruled P f →
      Ruled P (c.put C cst inl f)
  | .other, _, _, f, _, h => h
  | .hidden id, _, _, f, _, h => h
  | .text st t, _, _, f, _, h => h
  | .contents id ks, cst, inl, f, hs, h => by
    rw [Styled.put]
    exact putAll_ruled hP C ks cst inl ((f.note id ⟨some .displayContents, false⟩).claim id)
      (by simpa only [Styled.blockStyles] using hs) h
  | .elem id st .inline _ ks, cst, inl, f, hs, h =>
    putAll_ruled hP C ks cst true ((({ f with inl := [] } : Flow).note id ⟨none, true⟩).claim id)
      (by simpa only [Styled.blockStyles] using hs) h
  | .elem id st .block ins ks, cst, inl, f, hs, h => by
    simp only [Styled.blockStyles, List.mem_cons, forall_eq_or_imp] at hs
    have hr := (putAll_ruled hP C ks st false Flow.empty hs.2 (by intro s k; simp [boxesOf, Flow.empty, blockStylesAll] at k)).container hP st
    have h0 : Ruled P ((f.note id ⟨none, true⟩).claim id) := h
    simp only [Styled.put]
    split
    · split
      · exact h
      · exact h0.push (by simp [BlockLevelBox.blockStyles])
    · split
      · split
        · exact h
        · exact Ruled.push h (by simp [BlockLevelBox.blockStyles])
      · split
        · refine (h0.flush hP cst).push ?_
          simp only [BlockLevelBox.blockStyles, List.mem_cons, forall_eq_or_imp]
          exact ⟨hs.1, hr⟩
        · refine (h0.flush hP cst).push ?_
          simp only [BlockLevelBox.blockStyles, List.mem_cons, forall_eq_or_imp]
          exact ⟨hs.1, hr⟩

theorem putAll_ruled {P : Style → Prop} (hP : ∀ p, P (Style.anonymousInheritingFrom p)) (C : BoxContext) :
    ∀ (cs : List Styled) (cst : Style) (inl : Bool) (f : Flow), (∀ s ∈ styledBlockStyles cs, P s) → Ruled P f →
      Ruled P (putAll C cst inl cs f)
  | [], _, _, f, _, h => h
  | c :: cs, cst, inl, f, hs, h => by
    simp only [styledBlockStyles, List.mem_append] at hs
    exact putAll_ruled hP C cs cst inl _ (fun s k => hs s (.inr k)) (put_ruled hP C c cst inl f (fun s k => hs s (.inl k)) h)

end

theorem blocks_ruled {P : Style → Prop} (hP : ∀ p, P (Style.anonymousInheritingFrom p)) (C : BoxContext) {L : List Styled}
    (h : blocksOnly L = true) (hs : ∀ s ∈ styledBlockStyles L, P s) :
    ∀ s ∈ blockStylesAll ((L.filter Styled.inFlowBlock).map (Styled.blockBox C)), P s := by
  have := (putAll_ruled hP C L Style.initial false Flow.empty hs
    (by intro s k; simp [boxesOf, Flow.empty, blockStylesAll] at k)).container hP Style.initial
  have e := containerOf_blocks C Style.initial h
  unfold containerOf at e
  rw [e] at this
  exact this

theorem blocks_heightFree (C : BoxContext) {L : List Styled} (h : ∀ x ∈ L, x.heightFree) :
    ∀ b ∈ (L.filter Styled.inFlowBlock).map (Styled.blockBox C), b.heightFree := by
  intro b hb
  obtain ⟨x, hx, rfl⟩ := List.mem_map.1 hb
  obtain ⟨hx, hi⟩ := List.mem_filter.1 hx
  have := h x hx
  match x, hi, this with
  | .elem _ s .block .flow _, _, k => exact k
  | .elem _ s .block .flowRoot _, _, k => exact k

theorem anonymous_bordersKept (p : Option Style) : (Style.anonymousInheritingFrom p).bordersKept := ⟨.inl rfl, .inl rfl⟩

end Sinab
