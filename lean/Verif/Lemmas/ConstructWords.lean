import Verif.Lemmas.ConstructBoxes

/-! Text of inline content: the text that reaches layout against the source text. -/

namespace Sinab

theorem joined_append (a b : List (Bool × Text)) : ∀ acc, joined acc (a ++ b) = joined (joined acc a) b := by
  induction a with
  | nil => intro acc; rfl
  | cons p a ih => intro acc; obtain ⟨k, t⟩ := p; simp only [List.cons_append, joined, ih]

mutual

theorem Styled.shown_prefix : ∀ (c : Styled) (acc : Text), ∃ y, c.shown acc = acc ++ y
  | .other, acc | .hidden _, acc | .elem _ _ .block _ _, acc => ⟨[], by simp [Styled.shown]⟩
  | .text st t, acc => ⟨_, rfl⟩
  | .contents _ ks, acc => shownAll_prefix ks acc
  | .elem _ _ .inline _ ks, acc => ⟨_, rfl⟩

theorem shownAll_prefix : ∀ (cs : List Styled) (acc : Text), ∃ y, shownAll acc cs = acc ++ y
  | [], acc => ⟨[], by simp [shownAll]⟩
  | c :: cs, acc => by
    obtain ⟨y, hy⟩ := Styled.shown_prefix c acc
    obtain ⟨z, hz⟩ := shownAll_prefix cs (acc ++ y)
    exact ⟨y ++ z, by rw [shownAll, hy, hz, List.append_assoc]⟩

end

theorem shownAll_eq_nil {cs : List Styled} {acc : Text} (h : shownAll acc cs = []) : acc = [] := by
  obtain ⟨y, hy⟩ := shownAll_prefix cs acc
  rw [hy] at h
  exact (List.append_eq_nil_iff.1 h).1

mutual

theorem Styled.shown_nil : ∀ (c : Styled) (ps : List (Bool × Text)), c.inlineOnly = true →
    c.shown [] = [] → startsBlank (c.pieces ++ ps) = false → startsBlank ps = false
  | .other, ps, _, _, h | .hidden _, ps, _, _, h => h
  | .text st t, ps, _, hs, h => by
    cases t with
    | nil => simpa [Styled.pieces, startsBlank] using h
    | cons c t =>
      simp only [Styled.shown, List.nil_append] at hs
      simp only [Styled.pieces, List.cons_append, List.nil_append, startsBlank] at h
      split at hs
      · cases hs
      · rename_i hk
        have hc : htmlSpace c = false := by simpa [hk] using h
        rw [squeeze_nonWs hc] at hs
        cases hs
  | .contents _ ks, ps, hi, hs, h => shownAll_nil ks ps hi hs h
  | .elem _ _ .inline _ ks, ps, hi, hs, h => shownAll_nil ks ps hi hs h
  | .elem _ st .block _ ks, ps, hi, hs, h => by
    simp only [Styled.inlineOnly] at hi
    simpa [Styled.pieces, hi] using h

theorem shownAll_nil : ∀ (cs : List Styled) (ps : List (Bool × Text)), inlineOnlyAll cs = true →
    shownAll [] cs = [] → startsBlank (piecesOf cs ++ ps) = false → startsBlank ps = false
  | [], ps, _, _, h => h
  | c :: cs, ps, hi, hs, h => by
    simp only [inlineOnlyAll, Bool.and_eq_true] at hi
    rw [shownAll] at hs
    have hc : c.shown [] = [] := shownAll_eq_nil hs
    rw [hc] at hs
    rw [piecesOf, List.append_assoc] at h
    exact shownAll_nil cs ps hi.2 hs (Styled.shown_nil c _ hi.1 hc h)

end

mutual

/-- text in front does not matter unless it is followed by white space -/
theorem Styled.shown_shift : ∀ (c : Styled) (acc x : Text), c.inlineOnly = true →
    (x ≠ [] ∨ atGap acc = true ∨ startsBlank c.pieces = false) →
    c.shown (acc ++ x) = acc ++ c.shown x
  | .other, acc, x, _, _ | .hidden _, acc, x, _, _ | .elem _ _ .block _ _, acc, x, _, _ => rfl
  | .text st t, acc, x, _, h => by
    simp only [Styled.shown, List.append_assoc, List.append_cancel_left_eq]
    split
    · rfl
    · rename_i hk
      by_cases hx : x = []
      · subst hx
        rw [List.append_nil]
        rcases h with h | h | h
        · exact absurd rfl h
        · rw [h]; rfl
        · cases t with
          | nil => rfl
          | cons c t =>
            have hc : htmlSpace c = false := by
              simpa [Styled.pieces, startsBlank, hk] using h
            rw [squeeze_nonWs hc, squeeze_nonWs hc]
      · rw [atGap_append acc hx]
  | .contents _ ks, acc, x, hi, h => shownAll_shift ks acc x hi h
  | .elem _ _ .inline _ ks, acc, x, _, _ => by simp [Styled.shown]

theorem shownAll_shift : ∀ (cs : List Styled) (acc x : Text), inlineOnlyAll cs = true →
    (x ≠ [] ∨ atGap acc = true ∨ startsBlank (piecesOf cs) = false) →
    shownAll (acc ++ x) cs = acc ++ shownAll x cs
  | [], acc, x, _, _ => rfl
  | c :: cs, acc, x, hi, h => by
    simp only [inlineOnlyAll, Bool.and_eq_true] at hi
    have hpre : ∀ ps qs, startsBlank (ps ++ qs) = false → startsBlank ps = false := by
      intro ps qs
      induction ps with
      | nil => intro _; rfl
      | cons p ps ih =>
        obtain ⟨k, t⟩ := p
        cases t with
        | nil => simpa [startsBlank] using ih
        | cons c t => simp [startsBlank]
    have h1 : c.shown (acc ++ x) = acc ++ c.shown x := by
      refine Styled.shown_shift c acc x hi.1 ?_
      rcases h with h | h | h
      · exact .inl h
      · exact .inr (.inl h)
      · exact .inr (.inr (hpre _ _ h))
    rw [shownAll, h1, shownAll]
    refine shownAll_shift cs acc _ hi.2 ?_
    by_cases hx : c.shown x = []
    · obtain ⟨y, hy⟩ := Styled.shown_prefix c x
      have hx0 : x = [] := (List.append_eq_nil_iff.1 (hy.symm.trans hx)).1
      subst hx0
      rcases h with h | h | h
      · exact absurd rfl h
      · exact .inr (.inl h)
      · exact .inr (.inr (Styled.shown_nil c _ hi.1 hx h))
    · exact .inl hx

end

mutual

theorem Styled.shown_calm : ∀ (c : Styled) (acc : Text), c.inlineOnly = true → c.calm acc = true →
    c.shown acc = joined acc c.pieces
  | .other, acc, _, _ | .hidden _, acc, _, _ => rfl
  | .text st t, acc, _, _ => rfl
  | .contents _ ks, acc, hi, hc => shownAll_calm ks acc hi hc
  | .elem _ _ .inline _ ks, acc, hi, hc => by
    simp only [Styled.calm, Bool.and_eq_true, Bool.or_eq_true, Bool.not_eq_true'] at hc
    have h := shownAll_shift ks acc [] hi (.inr hc.1)
    rw [List.append_nil] at h
    rw [Styled.shown, ← h]
    exact shownAll_calm ks acc hi hc.2
  | .elem _ st .block _ ks, acc, hi, _ => by
    simp only [Styled.inlineOnly] at hi
    simp [Styled.shown, Styled.pieces, hi, joined]

theorem shownAll_calm : ∀ (cs : List Styled) (acc : Text), inlineOnlyAll cs = true →
    calmAll acc cs = true → shownAll acc cs = joined acc (piecesOf cs)
  | [], acc, _, _ => rfl
  | c :: cs, acc, hi, hc => by
    simp only [inlineOnlyAll, calmAll, Bool.and_eq_true] at hi hc
    rw [shownAll, piecesOf, joined_append, Styled.shown_calm c acc hi.1 hc.1]
    exact shownAll_calm cs _ hi.2 hc.2

end

mutual

theorem Styled.shown_keep : ∀ (c : Styled) (acc : Text), c.inlineOnly = true →
    (∀ p ∈ c.pieces, p.1 = true) → c.shown acc = acc ++ (c.pieces.map (·.2)).flatten
  | .other, acc, _, _ | .hidden _, acc, _, _ => by simp [Styled.shown, Styled.pieces]
  | .text st t, acc, _, h => by
    have : st.keepsSpace = true := h (st.keepsSpace, t) (by simp [Styled.pieces])
    simp [Styled.shown, Styled.pieces, this]
  | .contents _ ks, acc, hi, h => shownAll_keep ks acc hi h
  | .elem _ _ .inline _ ks, acc, hi, h => by
    rw [Styled.shown, shownAll_keep ks [] hi h, List.nil_append]
    rfl
  | .elem _ st .block _ ks, acc, hi, _ => by
    simp only [Styled.inlineOnly] at hi
    simp [Styled.shown, Styled.pieces, hi]

theorem shownAll_keep : ∀ (cs : List Styled) (acc : Text), inlineOnlyAll cs = true →
    (∀ p ∈ piecesOf cs, p.1 = true) → shownAll acc cs = acc ++ sourceText cs
  | [], acc, _, _ => by simp [shownAll, sourceText, piecesOf]
  | c :: cs, acc, hi, h => by
    simp only [inlineOnlyAll, Bool.and_eq_true] at hi
    rw [piecesOf] at h
    rw [shownAll, Styled.shown_keep c acc hi.1 fun p hp => h p (by simp [hp]),
      shownAll_keep cs _ hi.2 fun p hp => h p (by simp [hp])]
    simp [sourceText, piecesOf]

end

/-! ## No doubled spaces -/

/-- neighbours are not both white space -/
def SingleSpaced (t : Text) : Prop := t.IsChain fun a b => ¬ (htmlSpace a = true ∧ htmlSpace b = true)

/-- collapsed text -/
structure Tidy (t : Text) : Prop where
  single : SingleSpaced t
  space : ∀ c ∈ t, htmlSpace c = true → c = ' '
  head : ∀ c ∈ t.head?, htmlSpace c = false

theorem squeeze_space (t : Text) : ∀ g, ∀ c ∈ squeeze g t, htmlSpace c = true → c = ' ' := by
  induction t with
  | nil => intro g c hc; simp [squeeze] at hc
  | cons a t ih =>
    intro g c hc hw
    unfold squeeze at hc
    split at hc
    · split at hc
      · exact ih _ c hc hw
      · rcases List.mem_cons.1 hc with h | h
        · exact h
        · exact ih _ c h hw
    · rename_i ha
      rcases List.mem_cons.1 hc with h | h
      · subst h; exact absurd hw ha
      · exact ih _ c h hw

theorem squeeze_head (t : Text) : ∀ c ∈ (squeeze true t).head?, htmlSpace c = false := by
  induction t with
  | nil => simp [squeeze]
  | cons a t ih =>
    unfold squeeze
    split
    · exact ih
    · rename_i ha; simpa using ha

theorem squeeze_tidy (t : Text) : Tidy (squeeze true t) :=
  ⟨squeeze_no_double t true, squeeze_space t true, squeeze_head t⟩

theorem Tidy.squeeze_append {a : Text} (ha : Tidy a) (t : Text) : Tidy (a ++ squeeze (atGap a) t) := by
  by_cases hn : a = []
  · subst hn; exact squeeze_tidy t
  · refine ⟨?_, ?_, ?_⟩
    · refine List.isChain_append.2 ⟨ha.single, squeeze_no_double t _, ?_⟩
      rintro x hx y hy ⟨h1, h2⟩
      have hx' := ha.space x (List.mem_of_getLast? hx) h1
      have hg : atGap a = true := by
        unfold atGap
        rw [hx]
        simp [hx']
      rw [hg] at hy
      have := squeeze_head t y hy
      rw [this] at h2; cases h2
    · intro c hc
      rcases List.mem_append.1 hc with h | h
      · exact ha.space c h
      · exact squeeze_space t _ c h
    · rw [List.head?_append_of_ne_nil _ hn]; exact ha.head

theorem Tidy.append {a b : Text} (ha : Tidy a) (hb : Tidy b) : Tidy (a ++ b) := by
  refine ⟨List.isChain_append.2 ⟨ha.single, hb.single, ?_⟩, ?_, ?_⟩
  · rintro x _ y hy ⟨_, h2⟩
    have := hb.head y hy
    rw [this] at h2; cases h2
  · intro c hc
    rcases List.mem_append.1 hc with h | h
    · exact ha.space c h
    · exact hb.space c h
  · cases a with
    | nil => exact hb.head
    | cons x a => exact ha.head

mutual

theorem Styled.shown_tidy : ∀ (c : Styled) (acc : Text), c.inlineOnly = true →
    (∀ p ∈ c.pieces, p.1 = false) → Tidy acc → Tidy (c.shown acc)
  | .other, acc, _, _, h | .hidden _, acc, _, _, h | .elem _ _ .block _ _, acc, _, _, h => h
  | .text st t, acc, _, hp, h => by
    have : st.keepsSpace = false := hp (st.keepsSpace, t) (by simp [Styled.pieces])
    simp only [Styled.shown, this]
    exact h.squeeze_append t
  | .contents _ ks, acc, hi, hp, h => shownAll_tidy ks acc hi hp h
  | .elem _ _ .inline _ ks, acc, hi, hp, h =>
    h.append (shownAll_tidy ks [] hi hp ⟨by simp [SingleSpaced], by simp, by simp⟩)

theorem shownAll_tidy : ∀ (cs : List Styled) (acc : Text), inlineOnlyAll cs = true →
    (∀ p ∈ piecesOf cs, p.1 = false) → Tidy acc → Tidy (shownAll acc cs)
  | [], acc, _, _, h => h
  | c :: cs, acc, hi, hp, h => by
    simp only [inlineOnlyAll, Bool.and_eq_true] at hi
    rw [piecesOf] at hp
    exact shownAll_tidy cs _ hi.2 (fun p h => hp p (by simp [h]))
      (Styled.shown_tidy c acc hi.1 (fun p h => hp p (by simp [h])) h)

end

/-- collapsing collapsed text -/
theorem Tidy.squeeze_eq {t : Text} (h : Tidy t) : squeeze true t = t := by
  have gen : ∀ (t : Text) (g : Bool), SingleSpaced t → (∀ c ∈ t, htmlSpace c = true → c = ' ') →
      (g = true → ∀ c ∈ t.head?, htmlSpace c = false) → squeeze g t = t := by
    intro t
    induction t with
    | nil => intros; rfl
    | cons c t ih =>
      intro g h1 h2 h3
      have h1' : SingleSpaced t := by
        cases t with
        | nil => simp [SingleSpaced]
        | cons d t => exact (List.isChain_cons_cons.1 h1).2
      by_cases hc : htmlSpace c = true
      · have hg : g = false := by
          cases g
          · rfl
          · have := h3 rfl c rfl
            rw [this] at hc; cases hc
        subst hg
        rw [squeeze_ws hc, ih true h1' (fun x hx => h2 x (by simp [hx])), h2 c (by simp) hc]
        intro _ x hx
        cases t with
        | nil => cases hx
        | cons d t =>
          cases hx
          have := (List.isChain_cons_cons.1 h1).1
          simpa [hc] using this
      · have hc : htmlSpace c = false := by simpa using hc
        rw [squeeze_nonWs hc, ih false h1' (fun x hx => h2 x (by simp [hx])) (by simp)]
  exact gen t true h.single h.space fun _ => h.head

/-! ## Own text of a container -/

theorem Flow.pushBlk_owned {f : Flow} {b : Blk} (h : ∀ b ∈ f.blocks, b.box.isAnonymous = false)
    (hb : b.box.isAnonymous = false) : ∀ c ∈ (f.pushBlk b).blocks, c.box.isAnonymous = false := by
  intro c hc
  simp only [Flow.pushBlk, List.mem_append, List.mem_singleton] at hc
  rcases hc with hc | rfl
  · exact h c hc
  · exact hb

mutual

theorem Styled.put_owned (C : BoxContext) (cst : Style) (inl : Bool) : ∀ (c : Styled) (f : Flow),
    c.inlineOnly = true → (∀ b ∈ f.blocks, b.box.isAnonymous = false) →
    ∀ b ∈ (c.put C cst inl f).blocks, b.box.isAnonymous = false
  | .other, f, _, h | .hidden id, f, _, h | .text st t, f, _, h => h
  | .contents id ks, f, hi, h => putAll_owned C cst inl ks _ hi h
  | .elem id st .inline ins ks, f, hi, h => by
    have := putAll_owned C cst true ks
      ((({ f with inl := [] } : Flow).note id ⟨none, true⟩).claim id) hi h
    simpa only [Styled.put, Flow.note] using this
  | .elem id st .block ins ks, f, hi, h => by
    simp only [Styled.inlineOnly, Style.outOfFlow, Bool.or_eq_true] at hi
    simp only [Styled.put]
    split
    · split
      · exact h
      · exact Flow.pushBlk_owned h rfl
    · rename_i habs
      split
      · split
        · exact h
        · exact Flow.pushBlk_owned (f := { ((f.note id ⟨none, true⟩).claim id) with floats := true })
            h rfl
      · rename_i hflo
        rcases hi with hi | hi
        · exact absurd hi habs
        · exact absurd hi hflo

theorem putAll_owned (C : BoxContext) (cst : Style) (inl : Bool) : ∀ (cs : List Styled) (f : Flow),
    inlineOnlyAll cs = true → (∀ b ∈ f.blocks, b.box.isAnonymous = false) →
    ∀ b ∈ (putAll C cst inl cs f).blocks, b.box.isAnonymous = false
  | [], f, _, h => h
  | c :: cs, f, hi, h => by
    simp only [inlineOnlyAll, Bool.and_eq_true] at hi
    exact putAll_owned C cst inl cs _ hi.2 (Styled.put_owned C cst inl c f hi.1 h)

end

theorem containerOf_text (C : BoxContext) (st : Style) {cs : List Styled}
    (hi : inlineOnlyAll cs = true) : (containerOf C st cs).1.ownText = shownAll [] cs := by
  have h1 := (putAll_text C st false cs Flow.empty rfl hi).2
  have h2 := putAll_owned C st false cs Flow.empty hi (by simp [Flow.empty])
  rw [show inlineText Flow.empty.inl = [] from rfl] at h1
  unfold containerOf
  generalize putAll C st false cs Flow.empty = f at h1 h2
  have h3 : (f.blocks.map (·.box)).filter BlockLevelBox.isAnonymous = [] := by
    refine List.filter_eq_nil_iff.2 ?_
    intro b hb
    obtain ⟨x, hx, rfl⟩ := List.mem_map.1 hb
    simp [h2 x hx]
  rw [← h1]
  unfold Flow.container
  split
  · rfl
  · unfold Flow.flush
    split
    · rename_i hn
      simp only [BlockContainer.ownText, h3]
      simp [List.isEmpty_iff.1 hn, inlineText]
    · simp only [BlockContainer.ownText, List.map_append, List.filter_append, h3]
      simp [Flow.anon, BlockLevelBox.isAnonymous, anonymous_display, BlockLevelBox.ownText]

end Sinab
