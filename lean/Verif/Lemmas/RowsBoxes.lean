import Verif.Spec.Rows
import Verif.Lemmas.DecorBoxes
import Verif.Lemmas.ConstructInk

/-! Texts in the boxes of static elements have the font of the box that contains them. -/

namespace Sinab

mutual

/-- texts have the style of the box they are in, which is one of `S`, and its font, and no box is
absolutely positioned -/
def BlockContainer.own (F : Style → Font) (S : Style → Prop) : BlockContainer → Prop
  | .blockLevelBoxes bs => blockOwn F S bs
  | .inlineFormattingContext st bs => S st ∧ inlineOwn F S st bs

/-- see `BlockContainer.own` -/
def Bfc.own (F : Style → Font) (S : Style → Prop) : Bfc → Prop
  | .mk c _ => c.own F S

/-- see `BlockContainer.own` -/
def BlockLevelBox.own (F : Style → Font) (S : Style → Prop) : BlockLevelBox → Prop
  | .sameFormattingContextBlock _ c => c.own F S
  | .outOfFlowAbsolutelyPositionedBox _ _ => False
  | .outOfFlowFloatBox _ _ => True
  | .independent _ c => c.own F S

/-- see `BlockContainer.own` -/
def blockOwn (F : Style → Font) (S : Style → Prop) : List BlockLevelBox → Prop
  | [] => True
  | b :: bs => b.own F S ∧ blockOwn F S bs

/-- see `BlockContainer.own` -/
def InlineLevelBox.own (F : Style → Font) (S : Style → Prop) (p : Style) : InlineLevelBox → Prop
  | .inlineBox st _ _ ks => S st ∧ inlineOwn F S st ks
  | .textRun s _ f => s = p ∧ f = F p
  | .outOfFlowAbsolutelyPositionedBox _ _ => False
  | .outOfFlowFloatBox _ _ => True

/-- see `BlockContainer.own` -/
def inlineOwn (F : Style → Font) (S : Style → Prop) (p : Style) : List InlineLevelBox → Prop
  | [] => True
  | b :: bs => b.own F S p ∧ inlineOwn F S p bs

end

theorem inlineOwn_append {F : Style → Font} {S : Style → Prop} {p : Style} {a b : List InlineLevelBox} :
    inlineOwn F S p (a ++ b) ↔ inlineOwn F S p a ∧ inlineOwn F S p b := by
  induction a with
  | nil => simp [inlineOwn]
  | cons x a ih => simp [inlineOwn, ih, and_assoc]

theorem blockOwn_append {F : Style → Font} {S : Style → Prop} {a b : List BlockLevelBox} :
    blockOwn F S (a ++ b) ↔ blockOwn F S a ∧ blockOwn F S b := by
  induction a with
  | nil => simp [blockOwn]
  | cons x a ih => simp [blockOwn, ih, and_assoc]

/-- see `BlockContainer.own`; `lst` is the style of the box that gets the inline content -/
structure Flow.Own (F : Style → Font) (S : Style → Prop) (lst : Style) (f : Flow) : Prop where
  blocks : blockOwn F S (f.blocks.map (·.box))
  inl : inlineOwn F S lst f.inl

theorem Flow.Own.flush {F : Style → Font} {S : Style → Prop} {cst : Style} {f : Flow} (h : f.Own F S cst) (hS : S cst) :
    (f.flush cst).Own F S cst := by
  unfold Flow.flush
  split
  · exact h
  · refine ⟨?_, trivial⟩
    simp only [List.map_append, List.map_cons, List.map_nil, blockOwn_append]
    exact ⟨h.blocks, ⟨hS, h.inl⟩, trivial⟩

theorem Flow.Own.container {F : Style → Font} {S : Style → Prop} {cst : Style} {f : Flow} (h : f.Own F S cst) (hS : S cst) :
    (f.container cst).1.own F S := by
  unfold Flow.container
  split
  · exact ⟨hS, h.inl⟩
  · exact (h.flush hS).blocks

theorem Flow.Own.pushBlk {F : Style → Font} {S : Style → Prop} {lst : Style} {f : Flow} (h : f.Own F S lst) {b : Blk}
    (hb : b.box.own F S) : (f.pushBlk b).Own F S lst := by
  refine ⟨?_, h.inl⟩
  simp only [Flow.pushBlk, List.map_append, List.map_cons, List.map_nil, blockOwn_append]
  exact ⟨h.blocks, hb, trivial⟩

theorem addRun_own {C : BoxContext} {S : Style → Prop} {lst st : Style} {op : Bool} {t : Text}
    {l : List InlineLevelBox} (hl : LastRun C lst op l) (h : inlineOwn C.fontOf S lst l)
    (hu : st = lst ∨ op = true ∧ seen t = []) : inlineOwn C.fontOf S lst (addRun C st t l) := by
  unfold addRun
  split
  · exact h
  · rcases appendText_cases C st t l with ⟨s, old, f, pre, rfl, e⟩ | ⟨hno, e⟩
    · rw [e]
      rw [inlineOwn_append] at h ⊢
      exact ⟨h.1, h.2.1, trivial⟩
    · rw [e, inlineOwn_append]
      refine ⟨h, ?_, trivial⟩
      rcases hu with rfl | ⟨ho, _⟩
      · exact ⟨rfl, rfl⟩
      · obtain ⟨s, t, f, hx⟩ := hl.2 ho
        exact absurd hx (hno s t f)

theorem textInto_own {C : BoxContext} {S : Style → Prop} {lst st : Style} {op : Bool} {t : Text}
    {l : List InlineLevelBox} (hl : LastRun C lst op l) (h : inlineOwn C.fontOf S lst l)
    (hu : st = lst ∨ op = true ∧ seen t = []) : inlineOwn C.fontOf S lst (textInto C st t l) := by
  obtain ⟨b, hb⟩ := textInto_any C st t l
  rw [hb]
  have : seen (if st.keepsSpace then t else squeeze b t) = seen t := by
    split
    · rfl
    · exact seen_squeeze t b
  rw [← this] at hu
  exact addRun_own hl h hu

/-- not positioned -/
def Static (e : Boxed) : Prop := e.1.val .position = .static

mutual

theorem Styled.put_selfFont (C : BoxContext) (S : Style → Prop) (cst lst : Style) (inl op : Bool) : ∀ (c : Styled) (f : Flow),
    c.good inl = true → c.uniform lst op = true → (∀ e ∈ c.boxed, Static e ∧ S e.1) →
    (inl = false → lst = cst ∧ S cst) → LastRun C lst op f.inl → f.Own C.fontOf S lst →
    (c.put C cst inl f).Own C.fontOf S lst
  | .other, f, _, _, _, _, _, h => h
  | .hidden id, f, _, _, _, _, _, h => ⟨h.1, h.2⟩
  | .text st t, f, _, hu, _, _, hl, h => by
    have hu' : st = lst ∨ op = true ∧ seen t = [] := by
      simp only [Styled.uniform, Bool.or_eq_true, Bool.and_eq_true, decide_eq_true_eq,
        List.all_eq_true] at hu
      rcases hu with hu | ⟨h1, h2⟩
      · exact .inl hu
      · exact .inr ⟨h1, List.filter_eq_nil_iff.2 (by simpa using h2)⟩
    exact ⟨h.1, textInto_own hl h.2 hu'⟩
  | .contents id ks, f, hg, hu, hs, hc, hl, h => by
    simp only [Styled.good, Bool.and_eq_true] at hg
    exact putAll_selfFont C S cst lst inl op ks ((f.note id ⟨some .displayContents, false⟩).claim id)
      hg.2 hu hs hc hl ⟨h.1, h.2⟩
  | .elem id st .inline .flowRoot ks, f, hg, _, _, _, _, _ => by simp [Styled.good] at hg
  | .elem id st .inline .flow ks, f, hg, hu, hs, hc, hl, h => by
    simp only [Styled.good, Bool.and_eq_true] at hg
    have h1 := putAll_selfFont C S cst st true false ks
      ((({ f with inl := [] } : Flow).note id ⟨none, true⟩).claim id) hg.2 hu
      (fun e he => hs e (List.mem_cons_of_mem _ he)) (by simp) LastRun.nil ⟨h.1, trivial⟩
    exact ⟨h1.1, inlineOwn_append.2 ⟨h.2, ⟨(hs _ (List.mem_cons_self ..)).2, h1.2⟩, trivial⟩⟩
  | .elem id st .block ins ks, f, hg, hu, hs, hc, hl, h => by
    simp only [Styled.good, Bool.and_eq_true] at hg
    obtain ⟨hg1, hg2, hg3⟩ := hg
    simp only [Styled.put]
    split
    · rename_i habs
      have e : (Styled.elem id st .block ins ks).boxed = (st, .block) :: boxedAll ks := by
        rw [Styled.boxed, if_neg (by simp [habs])]
      have := (hs (st, .block) (by rw [e]; simp)).1
      simp only [Static] at this
      rw [this] at habs
      cases habs
    · rename_i habs
      split
      · split
        · exact ⟨h.1, inlineOwn_append.2 ⟨h.2, trivial, trivial⟩⟩
        · apply Flow.Own.pushBlk
          exacts [⟨h.1, h.2⟩, trivial]
      · rename_i hflo
        have e : (Styled.elem id st .block ins ks).boxed = (st, .block) :: boxedAll ks := by
          rw [Styled.boxed, if_neg (by simp [hflo])]
        have hinl : inl = false := by
          simpa [Style.outOfFlow, habs, hflo] using hg1
        have hS : S st := (hs (st, .block) (by rw [e]; simp)).2
        have hr := putAll_selfFont C S st st false false ks Flow.empty hg3 hu
          (fun x hx => hs x (by rw [e]; exact List.mem_cons_of_mem _ hx)) (fun _ => ⟨rfl, hS⟩)
          LastRun.nil ⟨trivial, trivial⟩
        have hr := hr.container hS
        obtain ⟨rfl, hS'⟩ := hc hinl
        have hf : ((f.note id ⟨none, true⟩).claim id).Own C.fontOf S lst := ⟨h.1, h.2⟩
        split
        · exact Flow.Own.pushBlk (hf.flush hS') hr
        · exact Flow.Own.pushBlk (hf.flush hS') hr

theorem putAll_selfFont (C : BoxContext) (S : Style → Prop) (cst lst : Style) (inl op : Bool) : ∀ (cs : List Styled)
    (f : Flow), goodAll inl cs = true → uniformAll lst op cs = true → (∀ e ∈ boxedAll cs, Static e ∧ S e.1) →
    (inl = false → lst = cst ∧ S cst) → LastRun C lst op f.inl → f.Own C.fontOf S lst →
    (putAll C cst inl cs f).Own C.fontOf S lst
  | [], f, _, _, _, _, _, h => h
  | c :: cs, f, hg, hu, hs, hc, hl, h => by
    simp only [goodAll, uniformAll, Bool.and_eq_true] at hg hu
    have a := Styled.put_ink C cst lst inl op c f hg.1 hu.1 hl
    have b := Styled.put_selfFont C S cst lst inl op c f hg.1 hu.1
      (fun e he => hs e (List.mem_append_left _ he)) hc hl h
    exact putAll_selfFont C S cst lst inl (c.afterText op) cs _ hg.2 hu.2
      (fun e he => hs e (List.mem_append_right _ he)) hc a.last b

end

theorem containerOf_selfFont (C : BoxContext) (S : Style → Prop) (st : Style) {cs : List Styled}
    (hg : goodContent cs = true) (hu : uniformAll st false cs = true)
    (hS : S st)
    (hs : ∀ e ∈ boxedAll cs, Static e ∧ S e.1) : (containerOf C st cs).1.own C.fontOf S := by
  simp only [goodContent, Bool.and_eq_true] at hg
  unfold containerOf
  exact (putAll_selfFont C S st st false false cs Flow.empty hg.2 hu hs (fun _ => ⟨rfl, hS⟩) LastRun.nil
    ⟨trivial, trivial⟩).container hS

end Sinab
