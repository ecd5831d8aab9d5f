import Verif.Spec.Respaced
import Verif.Props.Construct
import Verif.Props.SameTree

/-! White space in the source and the boxes. -/

namespace Sinab

/-! ## Collapsed texts -/

theorem blankLast_eq (t : Text) : blankLast t = blankEnd t := by
  unfold blankLast blankEnd
  cases t.getLast? <;> rfl

theorem SameWordsAtStart.squeeze {t t' : Text} (h : SameWordsAtStart t t') : squeeze true t = squeeze true t' := by
  rw [(squeeze_words t).2, (squeeze_words t').2, ← blankLast_eq, ← blankLast_eq]
  have hw : wordsFrom [] t = wordsFrom [] t' := h.words
  have hl : wordsFrom [] t ≠ [] → blankLast t = blankLast t' := h.last
  rw [← hw]
  by_cases hn : wordsFrom [] t = []
  · simp [hn]
  · simp [hn, hl hn]

theorem squeeze_false_eq (t : Text) : squeeze false t = (if blankFirst t then [' '] else []) ++ squeeze true t := by
  cases t with
  | nil => rfl
  | cons c t =>
    by_cases hc : htmlSpace c = true
    · simp [blankFirst, squeeze, hc]
    · simp [blankFirst, squeeze, hc]

theorem SameWords.squeeze {t t' : Text} (h : SameWords t t') (b : Bool) : squeeze b t = squeeze b t' := by
  have h1 := SameWordsAtStart.squeeze ⟨h.words, fun _ => h.last⟩
  cases b with
  | true => exact h1
  | false => rw [squeeze_false_eq, squeeze_false_eq, h1, h.first]

theorem squeeze_blank : ∀ {t : Text}, blank t → squeeze true t = []
  | [], _ => rfl
  | c :: t, h => by
    simp only [squeeze, h c (by simp), if_true]
    exact squeeze_blank fun x hx => h x (by simp [hx])

theorem squeeze_last : ∀ (t : Text) (b : Bool), blankLast t = true →
    (b = true ∧ squeeze b t = []) ∨ atGap (squeeze b t) = true ∧ squeeze b t ≠ []
  | [], b, h => by simp [blankLast] at h
  | [c], b, h => by
    have hc : htmlSpace c = true := by simpa [blankLast] using h
    cases b
    · right; simp [squeeze, hc, atGap]
    · left; simp [squeeze, hc]
  | c :: d :: t, b, h => by
    have h' : blankLast (d :: t) = true := by simpa [blankLast, List.getLast?_cons_cons] using h
    have key : ∀ (x : Char) (b' : Bool), (b' = true → x = ' ') →
        atGap (x :: squeeze b' (d :: t)) = true := by
      intro x b' hx
      rcases squeeze_last (d :: t) b' h' with ⟨h1, h2⟩ | ⟨h1, h2⟩
      · rw [h2, hx h1]; rfl
      · rw [← h1]; exact atGap_append [x] h2
    by_cases hc : htmlSpace c = true
    · cases b
      · right
        rw [squeeze_ws hc]
        exact ⟨key _ _ fun _ => rfl, by simp⟩
      · have : squeeze true (c :: d :: t) = squeeze true (d :: t) := by rw [squeeze]; simp [hc]
        rw [this]
        exact squeeze_last (d :: t) true h'
    · right
      rw [squeeze_nonWs (by simpa using hc)]
      exact ⟨key _ _ (by simp), by simp⟩

/-- behind a text that ends with white space -/
theorem contribution_gap {st : Style} (hk : st.keepsSpace = false) {t : Text} (ht : blankLast t = true) (acc : Text) :
    atGap (acc ++ contribution st acc t) = true := by
  simp only [contribution, hk, Bool.false_eq_true, if_false]
  rcases squeeze_last t (atGap acc) ht with ⟨h1, h2⟩ | ⟨h1, h2⟩
  · rw [h2, List.append_nil, h1]
  · rw [atGap_append _ h2, h1]

/-! ## Boxes -/

/-- what is known about the builders of both documents -/
structure Flow.Level (gap : Bool) (f g : Flow) : Prop where
  same : f.Same g
  filled : filledAll f.inl = true
  gap : gap = true → atGap (inlineText f.inl) = true

theorem Flow.Level.text {C C' : BoxContext} (hC : C.fontOf = C'.fontOf) {gap next : Bool} {f g : Flow} (h : f.Level gap g)
    {st : Style} {t t' : Text}
    (ht : contribution st (inlineText f.inl) t = contribution st (inlineText f.inl) t')
    (hn : next = true → atGap (inlineText f.inl ++ contribution st (inlineText f.inl) t) = true) :
    Flow.Level next { f with inl := textInto C st t f.inl } { g with inl := textInto C' st t' g.inl } := by
  refine ⟨⟨h.same.blocks, ?_, h.same.floats⟩, textInto_filled C st t h.filled, fun hh => ?_⟩
  · simp only [← h.same.inl]
    rw [← textInto_font hC, textInto_eq C st t h.filled, textInto_eq C st t' h.filled, ht]
  · simp only
    rw [textInto_text C st t h.filled]
    exact hn hh

theorem Flow.Level.blank {C : BoxContext} {f : Flow} (hf : filledAll f.inl = true)
    (hg : atGap (inlineText f.inl) = true) {st : Style} (hk : st.keepsSpace = false) {t : Text} (ht : Sinab.blank t) :
    { f with inl := textInto C st t f.inl } = f := by
  have : textInto C st t f.inl = f.inl := by
    rw [textInto_eq C st t hf, contribution]
    simp [hk, hg, squeeze_blank ht, addRun]
  rw [this]

theorem Flow.flush_gap (f : Flow) (cst : Style) : (f.flush cst).inl = [] := by
  unfold Flow.flush
  split
  · rename_i h; simpa using h
  · rfl

/-- The contents give the same boxes. -/
theorem Respaced.level {ends : Prop} {C C' : BoxContext} (hC : C.fontOf = C'.fontOf) {inl gap after : Bool}
    {cs cs' : List Styled} (h : Respaced ends inl gap after cs cs') : ∀ (cst : Style) (f g : Flow), f.Level gap g →
    (putAll C cst inl cs f).Level after (putAll C' cst inl cs' g) := by
  induction h with
  | nil => intro cst f g hf; exact hf
  | otherLeft _ ih => intro cst f g hf; exact ih cst f g hf
  | otherRight _ ih => intro cst f g hf; exact ih cst f g hf
  | blankLeft _ hk hb _ ih =>
    intro cst f g hf
    rw [putAll, Styled.put, Flow.Level.blank hf.filled (hf.gap rfl) hk hb]
    exact ih cst f g hf
  | blankRight _ hk hb _ ih =>
    intro cst f g hf
    rw [putAll, Styled.put, Flow.Level.blank (by rw [← hf.same.inl]; exact hf.filled)
      (by rw [← hf.same.inl]; exact hf.gap rfl) hk hb]
    exact ih cst f g hf
  | start hk hw _ ih =>
    intro cst f g hf
    refine ih cst _ _ (hf.text hC ?_ fun hn => contribution_gap hk hn _)
    simp only [contribution, hk, hf.gap rfl, hw.squeeze, Bool.false_eq_true, if_false]
  | text hk hw _ ih =>
    intro cst f g hf
    refine ih cst _ _ (hf.text hC ?_ fun hn => contribution_gap hk hn _)
    simp only [contribution, hk, hw.squeeze, Bool.false_eq_true, if_false]
  | @kept _ _ _ st t _ _ hk _ ih =>
    intro cst f g hf
    refine ih cst _ _ (hf.text hC rfl fun hn => ?_)
    simp only [Bool.and_eq_true, Bool.not_eq_true', List.isEmpty_eq_false_iff] at hn
    simp only [contribution, hk, if_true]
    rw [atGap_append _ hn.1, hn.2]
  | hidden _ ih => intro cst f g hf; exact ih cst _ _ ⟨⟨hf.same.1, hf.same.2, hf.same.3⟩, hf.filled, hf.gap⟩
  | contents _ _ _ ih1 ih2 =>
    intro cst f g hf
    exact ih2 cst _ _ (ih1 cst _ _ ⟨⟨hf.same.1, hf.same.2, hf.same.3⟩, hf.filled, hf.gap⟩)
  | @inline _ gap last _ i i' st ins ks ks' _ _ _ _ _ ih1 ih2 =>
    intro cst f g hf
    have hr := ih1 cst ((({ f with inl := [] } : Flow).note i ⟨none, true⟩).claim i)
      ((({ g with inl := [] } : Flow).note i' ⟨none, true⟩).claim i')
      ⟨⟨hf.same.1, rfl, hf.same.3⟩, rfl, fun _ => rfl⟩
    refine ih2 cst _ _ ?_
    simp only [Styled.put]
    refine ⟨⟨hr.same.1, ?_, hr.same.3⟩, ?_, ?_⟩
    · have := hr.same.inl
      simp only [Flow.note] at this ⊢
      rw [hf.same.inl, this]
    · have := hr.filled
      simp only [Flow.note] at this ⊢
      simp [filledAll_append, filledAll, InlineLevelBox.filled, hf.filled, this]
    · intro hh
      simp only [Bool.and_eq_true] at hh
      have h1 := hr.gap hh.2
      have h2 := hf.gap hh.1
      simp only [Flow.note] at h1 ⊢
      simp only [inlineText_append, inlineText, InlineLevelBox.text, List.append_nil]
      by_cases he : inlineText (putAll C cst true ks
          ((({ f with inl := [] } : Flow).note i ⟨none, true⟩).claim i)).inl = []
      · simp only [Flow.note] at he
        rw [he, List.append_nil, h2]
      · simp only [Flow.note] at he
        rw [atGap_append _ he, h1]
  | @block inl gap last _ i i' st ins ks ks' _ _ _ _ _ ih1 ih2 =>
    intro cst f g hf
    obtain ⟨c1, c2⟩ := (ih1 st Flow.empty Flow.empty ⟨Flow.Same.refl _, rfl, fun _ => rfl⟩).same.container st
    refine ih2 cst _ _ ?_
    have h0 : ((f.note i ⟨none, true⟩).claim i).Same ((g.note i' ⟨none, true⟩).claim i') :=
      ⟨hf.same.1, hf.same.2, hf.same.3⟩
    have hi : ((f.note i ⟨none, true⟩).claim i).inl = ((g.note i' ⟨none, true⟩).claim i').inl := hf.same.2
    have nn : ∀ (b : InlineLevelBox), b.filled = true → b.text = [] →
        filledAll (f.inl ++ [b]) = true ∧ inlineText (f.inl ++ [b]) = inlineText f.inl := by
      intro b h1 h2
      simp [filledAll_append, filledAll, hf.filled, h1, inlineText_append, inlineText, h2]
    have e2 := hf.same.inl
    have nn' : ∀ (b : InlineLevelBox), b.filled = true → b.text = [] →
        filledAll (g.inl ++ [b]) = true ∧ inlineText (g.inl ++ [b]) = inlineText f.inl := e2 ▸ nn
    simp only [Styled.put, c1, c2, hi]
    split
    · rename_i habs
      have hgap : (gap || !st.outOfFlow) = true → gap = true := by simp [Style.outOfFlow, habs]
      split
      · refine ⟨⟨hf.same.1, ?_, hf.same.3⟩, (nn _ rfl rfl).1, fun hh => ?_⟩
        · simp only [Flow.push, Flow.absorb, Flow.note, Flow.claim, e2]
        · exact (congrArg atGap (nn _ rfl rfl).2).trans (hf.gap (hgap hh))
      · exact ⟨h0.pushBlk rfl rfl, hf.filled, fun hh => hf.gap (hgap hh)⟩
    · rename_i habs
      split
      · rename_i hflo
        have hgap : (gap || !st.outOfFlow) = true → gap = true := by simp [Style.outOfFlow, hflo]
        split
        · refine ⟨⟨hf.same.1, rfl, rfl⟩, (nn' _ rfl rfl).1, fun hh => ?_⟩
          exact (congrArg atGap (nn' _ rfl rfl).2).trans (hf.gap (hgap hh))
        · exact ⟨⟨by simp [Flow.pushBlk, h0.blocks], rfl, rfl⟩, e2 ▸ hf.filled, fun hh => e2 ▸ hf.gap (hgap hh)⟩
      · have hl : ∀ b, ((((f.note i ⟨none, true⟩).claim i).flush cst).pushBlk b).inl = [] :=
          fun b => Flow.flush_gap _ cst
        split
        · exact ⟨(h0.flush cst).pushBlk rfl rfl, by rw [hl]; rfl, fun _ => by rw [hl]; rfl⟩
        · exact ⟨(h0.flush cst).pushBlk rfl rfl, by rw [hl]; rfl, fun _ => by rw [hl]; rfl⟩

theorem Respaced.container {ends : Prop} {C C' : BoxContext} (hC : C.fontOf = C'.fontOf) {after : Bool}
    {cs cs' : List Styled} (h : Respaced ends false true after cs cs') (st : Style) :
    (containerOf C st cs).1 = (containerOf C' st cs').1 ∧
    (containerOf C st cs).2.1 = (containerOf C' st cs').2.1 :=
  (h.level hC st Flow.empty Flow.empty ⟨Flow.Same.refl _, rfl, fun _ => rfl⟩).same.container st

theorem Respaced.good {ends : Prop} (he : ends) {inl gap after : Bool} {cs cs' : List Styled}
    (h : Respaced ends inl gap after cs cs') : goodAll inl cs = goodAll inl cs' := by
  induction h with
  | nil => rfl
  | otherLeft _ ih => simp [goodAll, Styled.good, ih]
  | otherRight _ ih => simp [goodAll, Styled.good, ih]
  | blankLeft hg _ _ _ ih => rw [goodAll, hg, ih, Bool.true_and]
  | blankRight hg _ _ _ ih => rw [goodAll, hg, ih, Bool.true_and]
  | start _ _ _ ih => simp only [goodAll, Styled.good, ih]
  | text _ _ _ ih => simp only [goodAll, Styled.good, ih]
  | kept _ _ ih => simp only [goodAll, Styled.good, ih]
  | hidden _ ih => simp only [goodAll, Styled.good, ih]
  | contents _ h _ ih1 ih2 => simp only [goodAll, Styled.good, ih1, ih2, h he]
  | @inline _ _ _ _ _ _ _ ins _ _ _ _ _ h _ ih1 ih2 => cases ins <;> simp only [goodAll, Styled.good, ih1, ih2, h he]
  | block _ h _ ih1 ih2 => simp only [goodAll, Styled.good, ih1, ih2, h he]

end Sinab
