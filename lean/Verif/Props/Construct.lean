import Verif.Lemmas.ConstructInk
import Verif.Lemmas.ConstructFuel
import Verif.Spec.Page

/-! # Properties of the box construction: C32 - C38, C64

`Built` says that the construction of the boxes of an element completed.  Content is the
one of `Verif/Spec/Boxes.lean`: what the document and the cascade say about the children
of the element. -/

namespace Sinab

/-- In context `C` with the forest `kids`, the element `id` has style `st` and content
`cs`, none of the elements in it was laid out before, and the construction of its boxes
completed with result `r`. -/
structure Built (C : BoxContext) (kids : NodeId → List NodeId) (st : Style) (id : NodeId)
    (cs : List Styled) (L : LayoutData) (n : Nat) (r : BlockContainer × Bool × LayoutData) : Prop where
  forest : C.doc.WF kids
  node : id < C.doc.len
  shows : Shows C kids st (kids id) cs
  fresh : ∀ x ∈ idsOf cs, L x = ⟨none, false⟩
  done : constructContainer C n st id L = .ok r

variable {C : BoxContext} {kids : NodeId → List NodeId} {st : Style} {id : NodeId}
  {cs : List Styled} {L : LayoutData} {n : Nat} {r : BlockContainer × Bool × LayoutData}

theorem Built.result (h : Built C kids st id cs L n r) : goodContent cs = true ∧
    r = ((containerOf C st cs).1, (containerOf C st cs).2.1, applyLog L (containerOf C st cs).2.2) :=
  construct_result h.forest h.node h.shows h.fresh h.done

theorem Built.text (h : Built C kids st id cs L n r) (hi : inlineOnlyAll cs = true) :
    r.1.ownText = shownAll [] cs := by
  rw [h.result.2]
  exact containerOf_text C st hi

/-- pages for which the construction completes -/
theorem built_page {d : Doc} (h : pageCheck d = true) {r} (hr : pageBoxes d = .ok r) :
    Built (pageContext d) (linkedKids d) (pageStyle d) 3 (pageContent d) LayoutData.fresh 40 r :=
  ⟨pageCheck_wf h, pageCheck_len h, pageCheck_shows h, fun _ _ => rfl, hr⟩

/-- evaluation of a page -/
theorem page_ok {d : Doc} {p : Text} (h : pageText d = .ok p) :
    ∃ r, pageBoxes d = .ok r ∧ r.1.ownText = p := by
  unfold pageText at h
  cases hb : pageBoxes d with
  | error e => rw [hb] at h; cases h
  | ok r => rw [hb] at h; exact ⟨r, rfl, Except.ok.inj h⟩

/-! ### C32 -/

/-- the words with one space in between, and one space at the end if the text ends with
white space -/
def normalized (t : Text) : Text :=
  List.intercalate [' '] (words t) ++
    if words t ≠ [] ∧ ∃ c ∈ t.getLast?, htmlSpace c = true then [' '] else []

/-- white space at the end -/
def blankEnd (t : Text) : Bool :=
  match t.getLast? with
  | some c => htmlSpace c
  | none => false

theorem blankEnd_cons (c : Char) {t : Text} (h : t ≠ []) : blankEnd (c :: t) = blankEnd t := by
  cases t with
  | nil => exact absurd rfl h
  | cons d t => simp [blankEnd, List.getLast?_cons_cons]

theorem wordsFrom_ne_nil (t : Text) : ∀ cur, cur ≠ [] → wordsFrom cur t ≠ [] := by
  induction t with
  | nil => intro cur h; simp [wordsFrom, h]
  | cons c t ih =>
    intro cur h
    unfold wordsFrom
    split
    · simp
    · exact ih _ (by simp)

theorem squeeze_words (t : Text) :
    (∀ cur, cur ≠ [] → cur ++ squeeze false t = List.intercalate [' '] (wordsFrom cur t) ++
      if blankEnd t then [' '] else []) ∧
    squeeze true t = List.intercalate [' '] (wordsFrom [] t) ++
      if wordsFrom [] t ≠ [] ∧ blankEnd t = true then [' '] else [] := by
  induction t with
  | nil =>
    refine ⟨fun cur h => ?_, ?_⟩
    · simp [squeeze, wordsFrom, h, blankEnd, List.intercalate]
    · simp [squeeze, wordsFrom, List.intercalate]
  | cons c t ih =>
    have he : t ≠ [] → blankEnd (c :: t) = blankEnd t := blankEnd_cons c
    by_cases hc : htmlSpace c = true
    · have hs : squeeze true (c :: t) = squeeze true t := by simp [squeeze, hc]
      have hw : wordsFrom [] (c :: t) = wordsFrom [] t := by simp [wordsFrom, hc]
      refine ⟨fun cur h => ?_, ?_⟩
      · rw [squeeze_ws hc, ih.2]
        have hw : wordsFrom cur (c :: t) = cur :: wordsFrom [] t := by simp [wordsFrom, hc, h]
        rw [hw]
        by_cases ht : t = []
        · subst ht
          simp [wordsFrom, blankEnd, hc, List.intercalate]
        · rw [he ht]
          cases hx : wordsFrom [] t with
          | nil =>
            have hall : blankEnd t = true := by
              rename_i hw0
              clear ih hs hw he hw0
              induction t with
              | nil => exact absurd rfl ht
              | cons d t ih2 =>
                unfold wordsFrom at hx
                split at hx
                · rename_i hd
                  simp only [if_true] at hx
                  by_cases ht2 : t = []
                  · subst ht2; simpa [blankEnd] using hd
                  · rw [blankEnd_cons d ht2]; exact ih2 ht2 hx
                · exact absurd hx (wordsFrom_ne_nil t _ (by simp))
            simp [hall, List.intercalate]
          | cons w ws => simp [List.intercalate]
      · rw [hs, ih.2, hw]
        by_cases ht : t = []
        · subst ht; simp [wordsFrom]
        · rw [he ht]
    · have hc : htmlSpace c = false := by simpa using hc
      have hb : blankEnd (c :: t) = blankEnd t := by
        cases t with
        | nil => simp [blankEnd, hc]
        | cons d t => exact he (by simp)
      refine ⟨fun cur h => ?_, ?_⟩
      · rw [squeeze_nonWs hc]
        have hw : wordsFrom cur (c :: t) = wordsFrom (cur ++ [c]) t := by simp [wordsFrom, hc]
        rw [hw, hb, ← ih.1 (cur ++ [c]) (by simp)]
        simp
      · rw [squeeze_nonWs hc]
        have hw : wordsFrom [] (c :: t) = wordsFrom [c] t := by simp [wordsFrom, hc]
        rw [hw, hb]
        have := ih.1 [c] (by simp)
        rw [List.singleton_append] at this
        rw [this]
        simp [wordsFrom_ne_nil t [c] (by simp)]

theorem squeeze_normalized (t : Text) : squeeze true t = normalized t := by
  rw [(squeeze_words t).2, normalized, words]
  congr 1
  refine if_congr ?_ rfl rfl
  unfold blankEnd
  cases t.getLast? <;> simp

/-- all text of the content is in a mode in which white space is collapsed -/
def collapsible (cs : List Styled) : Prop := ∀ p ∈ piecesOf cs, p.1 = false

theorem pieces_of_collapsible {ps : List (Bool × Text)} (h : ∀ p ∈ ps, p.1 = false) :
    ps = (ps.map (·.2)).map fun t => (false, t) := by
  induction ps with
  | nil => rfl
  | cons p ps ih =>
    obtain ⟨k, t⟩ := p
    have := h (k, t) (by simp)
    simp only at this
    subst this
    simp only [List.map_cons]
    rw [← ih fun p hp => h p (by simp [hp])]

/-- **C32** Inline content in normal white-space mode reaches layout as its words with
single spaces in between, however the source text is split to consecutive pieces.  (The
hypothesis `calmAll` is about the defect that C33 is about: it holds if no inline element
begins with white space.) -/
theorem C32_collapsed_text (h : Built C kids st id cs L n r) (hi : inlineOnlyAll cs = true)
    (hc : collapsible cs) (hq : calmAll [] cs = true) :
    r.1.ownText = normalized (sourceText cs) := by
  rw [h.text hi, shownAll_calm cs [] hi hq, pieces_of_collapsible hc]
  have := squeeze_pieces ((piecesOf cs).map (·.2)) []
  rw [show squeeze true [] = [] from rfl, List.nil_append] at this
  rw [this, squeeze_normalized]
  rfl

/-- **C32** For consecutive texts without elements in between nothing more is needed. -/
theorem C32_collapsed_flat_text (h : Built C kids st id cs L n r)
    (hf : ∀ c ∈ cs, (∃ s t, c = .text s t ∧ s.keepsSpace = false) ∨ c = .other) :
    r.1.ownText = normalized (sourceText cs) := by
  have key : ∀ cs : List Styled, (∀ c ∈ cs, (∃ s t, c = .text s t ∧ s.keepsSpace = false) ∨ c = .other) →
      inlineOnlyAll cs = true ∧ collapsible cs ∧ ∀ acc, calmAll acc cs = true := by
    intro cs
    induction cs with
    | nil => intro _; exact ⟨rfl, by simp [collapsible, piecesOf], fun _ => rfl⟩
    | cons c cs ih =>
      intro hf
      obtain ⟨i1, i2, i3⟩ := ih fun c hc => hf c (by simp [hc])
      rcases hf c (by simp) with ⟨s, t, rfl, hs⟩ | rfl
      · refine ⟨by simp [inlineOnlyAll, Styled.inlineOnly, i1], ?_, fun acc => ?_⟩
        · intro p hp
          simp only [piecesOf, Styled.pieces, List.cons_append, List.nil_append, List.mem_cons] at hp
          rcases hp with rfl | hp
          · exact hs
          · exact i2 p hp
        · simp [calmAll, Styled.calm, i3]
      · exact ⟨by simp [inlineOnlyAll, Styled.inlineOnly, i1], by simpa [collapsible, piecesOf,
          Styled.pieces] using i2, fun acc => by simp [calmAll, Styled.calm, i3]⟩
  obtain ⟨k1, k2, k3⟩ := key cs hf
  exact C32_collapsed_text h k1 k2 (k3 [])

/-- **C32** In every inline content in normal white-space mode, no two white space
characters are adjacent, all of them are spaces, and the first character is not a space. -/
theorem C32_single_spaced (h : Built C kids st id cs L n r) (hi : inlineOnlyAll cs = true)
    (hc : collapsible cs) :
    (∀ i a b, r.1.ownText[i]? = some a → r.1.ownText[i + 1]? = some b →
      ¬ (htmlSpace a = true ∧ htmlSpace b = true)) ∧
    (∀ c ∈ r.1.ownText, htmlSpace c = true → c = ' ') ∧
    ∀ c ∈ r.1.ownText.head?, htmlSpace c = false := by
  rw [h.text hi]
  have ht := shownAll_tidy cs [] hi hc ⟨by simp [SingleSpaced], by simp, by simp⟩
  refine ⟨?_, ht.space, ht.head⟩
  intro i a b h1 h2
  obtain ⟨l1, l2⟩ := List.getElem?_eq_some_iff.1 h1
  obtain ⟨l3, l4⟩ := List.getElem?_eq_some_iff.1 h2
  have := List.isChain_iff_getElem.1 ht.single i (by omega)
  rw [l2, l4] at this
  exact this

/-- **C32** Collapsing keeps the words, and collapsing collapsed text changes nothing. -/
theorem C32_words_kept_and_idempotent (t : Text) :
    words (normalized t) = words t ∧ normalized (normalized t) = normalized t := by
  rw [← squeeze_normalized, ← squeeze_normalized]
  refine ⟨?_, (squeeze_tidy t).squeeze_eq⟩
  have := wordsFrom_squeeze [] t true [] (fun _ => rfl)
  simpa [words] using this

example : normalized "  a\n\t b  c ".toList = "a b c ".toList := by decide

/-- a page with white space of all sorts, split in three pieces -/
def spacesPage : Doc := pageOf [.text " \n two ", .comment, .text "  words,", .comment, .text "no gap\t"]

example : pageCheck spacesPage = true ∧ pageText spacesPage = .ok "two words,no gap ".toList ∧
    collapsible (pageContent spacesPage) ∧ inlineOnlyAll (pageContent spacesPage) = true ∧
    calmAll [] (pageContent spacesPage) = true ∧
    normalized (sourceText (pageContent spacesPage)) = "two words,no gap ".toList := by
  unfold collapsible; decide +kernel

/-! ### C33 -/

/-- **C33, full statement**: in inline content, words stay what they are. -/
def C33_full : Prop :=
  ∀ (C : BoxContext) (kids : NodeId → List NodeId) (st : Style) (id : NodeId) (cs : List Styled)
    (L : LayoutData) (n : Nat) (r : BlockContainer × Bool × LayoutData),
    Built C kids st id cs L n r → inlineOnlyAll cs = true →
    words r.1.ownText = words (sourceText cs)

/-- `foo<em> bar</em>` -/
def gluedPage : Doc := pageOf [.text "foo", .node "em" [.text " bar"]]

/-- **C33 is false**: `foo<em> bar</em>` is laid out as `foobar`. -/
theorem C33_full_false : ¬ C33_full := by
  intro h
  have h1 : pageCheck gluedPage = true := by decide +kernel
  have h2 : pageText gluedPage = .ok "foobar".toList := by decide +kernel
  have h3 : inlineOnlyAll (pageContent gluedPage) = true := by decide +kernel
  have h4 : words (sourceText (pageContent gluedPage)) = ["foo".toList, "bar".toList] := by
    decide +kernel
  obtain ⟨r, hr, ht⟩ := page_ok h2
  have := h _ _ _ _ _ _ _ _ (built_page h1 hr) h3
  rw [ht, h4] at this
  revert this
  decide

/-- **C33, what holds**: the words are kept if no inline element begins with white space
that separates words, in any mix of white-space modes. -/
theorem C33_words_partial (h : Built C kids st id cs L n r) (hi : inlineOnlyAll cs = true)
    (hq : calmAll [] cs = true) : words r.1.ownText = words (sourceText cs) := by
  rw [h.text hi, shownAll_calm cs [] hi hq,
    words_joined (piecesOf cs) [] [] (fun _ => rfl), List.nil_append]
  rfl

/-- **C33, exactly**: what is lost is the white space at the beginning of inline elements
(`shownAll` collapses the text of an inline element as if it was the start of a line). -/
theorem C33_exact_partial (h : Built C kids st id cs L n r) (hi : inlineOnlyAll cs = true) :
    r.1.ownText = shownAll [] cs := h.text hi

/-- `a <em>b  <b>c</b></em> d<br>e` -/
def calmPage : Doc := pageOf [.text "a ", .node "em" [.text "b  ", .node "b" [.text "c"]],
  .text " d", .node "br" [], .text "  e"]

example : pageCheck calmPage = true ∧ pageText calmPage = .ok "a b c d\ne".toList ∧
    inlineOnlyAll (pageContent calmPage) = true ∧ calmAll [] (pageContent calmPage) = true := by
  decide +kernel

/-! ### C34 -/

/-- **C34** If white space is preserved, the text reaches layout unchanged, also if there
are elements in between. -/
theorem C34_preserved_text (h : Built C kids st id cs L n r) (hi : inlineOnlyAll cs = true)
    (hk : ∀ p ∈ piecesOf cs, p.1 = true) : r.1.ownText = sourceText cs := by
  rw [h.text hi, shownAll_keep cs [] hi hk, List.nil_append]

/-- text in `white-space: pre-wrap`, with inline elements -/
def prePage : Doc := pageOf [.node "prewrap" [.text " a  \n b", .node "em" [.text "  c "], .comment,
  .text " d "]]

example : pageCheck prePage = true ∧ pageText prePage = .ok " a  \n b  c  d ".toList ∧
    inlineOnlyAll (pageContent prePage) = true ∧ (∀ p ∈ piecesOf (pageContent prePage), p.1 = true) := by
  decide +kernel

/-! ### C35 -/

/-- **C35** Text and elements appear in the boxes in document order, nothing is lost or
duplicated. -/
theorem C35_reading_order (h : Built C kids st id cs L n r) : r.1.marks = marksOf cs := by
  obtain ⟨hg, rfl⟩ := h.result
  exact containerOf_marks C st hg h.shows.faithful

/-- **C35** Block containers hold either blocks or one inline formatting context; the
inline formatting contexts between blocks are in anonymous blocks; these are not adjacent
and not empty. -/
theorem C35_shape (h : Built C kids st id cs L n r) : r.1.proper = true := by
  obtain ⟨_, rfl⟩ := h.result
  exact containerOf_proper C st h.shows.faithful

/-- **C35** The construction completes for all content without the things it cannot
handle (`goodContent`: no block of the flow in an inline element, no hidden last child, no
inline blocks, no `white-space: pre-line`). -/
theorem C35_completes (hw : C.doc.WF kids) (hid : id < C.doc.len)
    (hs : Shows C kids st (kids id) cs) (hL : ∀ x ∈ idsOf cs, L x = ⟨none, false⟩)
    (hg : goodContent cs = true) : ∃ n r, Built C kids st id cs L n r := by
  obtain ⟨n, r, h⟩ := (construct_iff hw hid hs hL).2 hg
  exact ⟨n, r, hw, hid, hs, hL, h⟩

/-- **C35** The boxes of a page: the root element's box with everything in it. -/
theorem C35_page {root : NodeId} {b : Bfc} {n : Nat} (hw : C.doc.WF kids)
    (hr : C.doc.rootElement C.doc.len = .ok root) (hid : root < C.doc.len)
    (hst : C.styleOf root none = .ok st) (hd : st.val .display ≠ .none)
    (hs : Shows C kids st (kids root) cs) (h : boxTree C n = .ok b) :
    b.marks = .enter st :: marksOf cs ++ [.leave] := by
  unfold boxTree at h
  rw [hr] at h
  simp only [bind, Except.bind, hst] at h
  unfold constructRoot at h
  rw [if_neg hd] at h
  cases hc : constructContainer C n st root LayoutData.fresh with
  | error e => rw [hc] at h; cases h
  | ok r =>
    have hb : Built C kids st root cs LayoutData.fresh n r := ⟨hw, hid, hs, fun _ _ => rfl, hc⟩
    have hm := C35_reading_order hb
    rw [hc] at h
    simp only [bind, Except.bind, pure, Except.pure] at h
    have fin : ∀ {bs fl}, b = Bfc.mk (.blockLevelBoxes bs) fl →
        blockMarks bs = .enter st :: r.1.marks ++ [.leave] →
        b.marks = .enter st :: marksOf cs ++ [.leave] := by
      intro bs fl h1 h2
      subst h1
      rw [Bfc.marks, BlockContainer.marks, h2, hm]
    split at h
    · rename_i heq
      split at heq
      · cases heq
      · split at heq <;> cases heq
    · rename_i v heq
      injection h with h
      refine fin h.symm ?_
      split at heq
      · injection heq with heq; subst heq
        simp [blockMarks, BlockLevelBox.marks, Bfc.marks]
      · split at heq <;>
        · injection heq with heq; subst heq
          simp [blockMarks, BlockLevelBox.marks, Bfc.marks]

/-- `x<p>y</p>z<div><em>u</em></div>` -/
def blocksPage : Doc := pageOf [.text " x", .node "p" [.text "y"], .text "z",
  .node "div" [.node "em" [.text "u"]]]

/-- block-level boxes of a page: whether they are anonymous, and their inline text -/
def outline : Except Panic (BlockContainer × Bool × LayoutData) → List (Bool × Text)
  | .ok (.blockLevelBoxes bs, _) => bs.map fun b => (b.isAnonymous, b.ownText)
  | _ => []

example : pageCheck blocksPage = true ∧ outline (pageBoxes blocksPage) =
    [(true, ['x']), (false, ['y']), (true, ['z']), (false, ['u'])] := by decide +kernel

/-! ### C36 -/

mutual

/-- a block of the flow inside of an inline element (`inl`: we are in one) -/
def Styled.splits (inl : Bool) : Styled → Bool
  | .other | .hidden _ | .text _ _ => false
  | .contents _ ks => splitsAny inl ks
  | .elem _ _ .inline _ ks => splitsAny true ks
  | .elem _ st .block _ ks => (inl && !st.outOfFlow) || splitsAny false ks

/-- `Styled.splits` for some entry -/
def splitsAny (inl : Bool) : List Styled → Bool
  | [] => false
  | c :: cs => c.splits inl || splitsAny inl cs

end

mutual

theorem Styled.splits_bad (inl : Bool) : ∀ c : Styled, c.good inl = true → c.splits inl = false
  | .other, _ | .hidden _, _ | .text _ _, _ => rfl
  | .contents _ ks, h => by
    simp only [Styled.good, Bool.and_eq_true] at h
    exact splitsAny_bad inl ks h.2
  | .elem _ _ .inline .flow ks, h => by
    simp only [Styled.good, Bool.and_eq_true] at h
    exact splitsAny_bad true ks h.2
  | .elem _ _ .inline .flowRoot ks, h => by simp [Styled.good] at h
  | .elem _ st .block _ ks, h => by
    simp only [Styled.good, Bool.and_eq_true] at h
    have h1 := h.1
    have h2 := splitsAny_bad false ks h.2.2
    unfold Styled.splits
    rw [h2]
    cases inl <;> cases hst : st.outOfFlow <;> simp_all

theorem splitsAny_bad (inl : Bool) : ∀ cs : List Styled, goodAll inl cs = true → splitsAny inl cs = false
  | [], _ => rfl
  | c :: cs, h => by
    simp only [goodAll, Bool.and_eq_true] at h
    rw [splitsAny, Styled.splits_bad inl c h.1, splitsAny_bad inl cs h.2]
    rfl

end

/-- **C36, a consequence of the full statement**: content with a block in an inline
element is laid out. -/
def C36_full : Prop :=
  ∀ (C : BoxContext) (kids : NodeId → List NodeId) (st : Style) (id : NodeId) (cs : List Styled)
    (L : LayoutData), C.doc.WF kids → id < C.doc.len → Shows C kids st (kids id) cs →
    (∀ x ∈ idsOf cs, L x = ⟨none, false⟩) → splitsAny false cs = true →
    ∃ n r, constructContainer C n st id L = .ok r

/-- **C36 is false for all such content**: the construction never completes. -/
theorem C36_block_in_inline_fails (hw : C.doc.WF kids) (hid : id < C.doc.len)
    (hs : Shows C kids st (kids id) cs) (hb : splitsAny false cs = true) (n : Nat) (L : LayoutData)
    (r : BlockContainer × Bool × LayoutData) : constructContainer C n st id L ≠ .ok r := by
  intro h
  have hg := (construct_good hw n).2 st id L r hid h cs hs
  simp only [goodContent, Bool.and_eq_true] at hg
  rw [splitsAny_bad false cs hg.2] at hb
  cases hb

/-- `a<em>b<p>c</p>d</em>` -/
def splitPage : Doc := pageOf [.text "a", .node "em" [.text "b", .node "p" [.text "c"], .text "d"]]

/-- For `a<em>b<p>c</p>d</em>` the process is aborted: while the panic unwinds, the slot of
`<em>` panics again. -/
theorem C36_full_false : pageText splitPage = .error .abort ∧ ¬ C36_full := by
  have h1 : pageCheck splitPage = true := by decide +kernel
  have h2 : splitsAny false (pageContent splitPage) = true := by decide +kernel
  refine ⟨by decide +kernel, fun h => ?_⟩
  obtain ⟨n, r, hr⟩ := h _ _ _ _ _ LayoutData.fresh (pageCheck_wf h1) (pageCheck_len h1)
    (pageCheck_shows h1) (fun _ _ => rfl) h2
  exact C36_block_in_inline_fails (pageCheck_wf h1) (pageCheck_len h1) (pageCheck_shows h1) h2 n _ r hr

/-! ### C37 -/

/-- **C37, the part about completion of the full statement**: a hidden element at any
place is skipped, that is: if content without it can be handled, so can content with it. -/
def C37_full : Prop :=
  ∀ (C C' : BoxContext) (kids kids' : NodeId → List NodeId) (st : Style) (id : NodeId)
    (cs cs' : List Styled) (L L' : LayoutData) (n : Nat) (r : BlockContainer × Bool × LayoutData),
    Built C kids st id cs L n r → C'.doc.WF kids' → id < C'.doc.len →
    Shows C' kids' st (kids' id) cs' → (∀ x ∈ idsOf cs', L' x = ⟨none, false⟩) →
    stripAll cs = stripAll cs' → ∃ n' r', constructContainer C' n' st id L' = .ok r'

/-- **C37 is false if the hidden element is a last child**: the construction never
completes, with any amount of fuel. -/
theorem C37_last_child_fails (hw : C.doc.WF kids) (hid : id < C.doc.len)
    (hs : Shows C kids st (kids id) cs) (hb : endsHidden cs = true) (n : Nat) (L : LayoutData)
    (r : BlockContainer × Bool × LayoutData) : constructContainer C n st id L ≠ .ok r := by
  intro h
  have hg := (construct_good hw n).2 st id L r hid h cs hs
  simp [goodContent, hb] at hg

theorem unsetNext_hang {d : Doc} {node p : Node} {i : NodeId} (hp : node.parent = some i)
    (hi : d.get i = .ok p) (hn : p.nextSibling = none) (n : Nat) :
    unsetNext d node n i = .error .outOfFuel := by
  induction n with
  | zero => rfl
  | succ n ih => simp [unsetNext, hi, hn, hp, ih, bind, Except.bind]

/-- **C37 is false, how**: if neither the hidden element nor its parent have a next sibling
(`<body>…<script></script></body>`), then the loop does not end. -/
theorem C37_endless_loop {d : Doc} {i p : NodeId} {e : ElementData} {L : LayoutData}
    (hi : i < d.len) (hp : p < d.len) (hd : (d.node i).data = .element e)
    (hpar : (d.node i).parent = some p) (hn : (d.node i).nextSibling = none)
    (hpn : (d.node p).nextSibling = none) (hL : L i = ⟨none, false⟩) (n : Nat) :
    unsetBoxesInSubtree d i n L = .error .outOfFuel := by
  have gi : d.get i = .ok (d.node i) := Doc.get_ok _ _ hi
  have gp : d.get p = .ok (d.node p) := Doc.get_ok _ _ hp
  cases n with
  | zero => rfl
  | succ n =>
    have : unsetNext d (d.node i) n i = .error .outOfFuel := by
      cases n with
      | zero => rfl
      | succ n =>
        rw [unsetNext, gi]
        simp only [bind, Except.bind, hn, hpar]
        exact unsetNext_hang hpar gp hpn n
    simp only [unsetBoxesInSubtree, unsetLoop, gi, bind, Except.bind, hd, hL]
    simp [this]

/-- `a<script></script>` -/
def hiddenPage : Doc := pageOf [.text "a", .node "script" []]

/-- `a` -/
def shownPage : Doc := pageOf [.text "a"]

theorem C37_full_false : (∀ L : LayoutData, L 5 = ⟨none, false⟩ → ∀ n,
    unsetBoxesInSubtree hiddenPage 5 n L = .error .outOfFuel) ∧ ¬ C37_full := by
  constructor
  · intro L hL n
    refine C37_endless_loop (p := 3) (e := ⟨htmlName "script", []⟩) ?_ ?_ ?_ ?_ ?_ ?_ hL n <;>
      decide +kernel
  · intro h
    have h1 : pageCheck hiddenPage = true := by decide +kernel
    have h2 : pageCheck shownPage = true := by decide +kernel
    have h3 : pageText shownPage = .ok ['a'] := by decide +kernel
    have h4 : endsHidden (pageContent hiddenPage) = true := by decide +kernel
    obtain ⟨r, hr, ht⟩ := page_ok h3
    have hst : pageStyle hiddenPage = pageStyle shownPage := by decide +kernel
    have hcs : stripAll (pageContent shownPage) = stripAll (pageContent hiddenPage) :=
      sameAll_eq _ _ (by decide +kernel)
    have hs := pageCheck_shows h1
    rw [hst] at hs
    obtain ⟨n', r', hr'⟩ := h _ _ _ _ _ _ _ _ _ LayoutData.fresh _ _ (built_page h2 hr)
      (pageCheck_wf h1) (pageCheck_len h1) hs (fun _ _ => rfl) hcs
    exact C37_last_child_fails (pageCheck_wf h1) (pageCheck_len h1) hs h4 n' _ r' hr'

/-- **C37, what holds**: hidden elements that are not last children do not prevent
completion (`goodContent` says nothing else about them), … -/
theorem C37_skipped_partial (hw : C.doc.WF kids) (hid : id < C.doc.len)
    (hs : Shows C kids st (kids id) cs) (hL : ∀ x ∈ idsOf cs, L x = ⟨none, false⟩) :
    (∃ n r, constructContainer C n st id L = .ok r) ↔ goodContent cs = true :=
  construct_iff hw hid hs hL

/-- … and the boxes are those of any document that differs only in what is not displayed
(hidden elements, comments), … -/
theorem C37_as_if_absent_partial {C' : BoxContext} {kids'} {id' cs' L' n' r'}
    (h : Built C kids st id cs L n r) (h' : Built C' kids' st id' cs' L' n' r')
    (hf : C.fontOf = C'.fontOf) (hcs : stripAll cs = stripAll cs') :
    r.1 = r'.1 ∧ r.2.1 = r'.2.1 := by
  obtain ⟨_, rfl⟩ := h.result
  obtain ⟨_, rfl⟩ := h'.result
  exact containerOf_strip hf st hcs

/-- … and the layout data of elements outside of the content is not touched. -/
theorem C37_outside_untouched_partial (h : Built C kids st id cs L n r) (x : NodeId)
    (hx : x ∉ idsOf cs) : r.2.2 x = L x := by
  obtain ⟨hg, rfl⟩ := h.result
  exact (containerOf_settled C st L (h.shows.nodup h.forest) hg h.shows.faithful).2 x hx

/-- `a<script>x</script>b` -/
def skippedPage : Doc := pageOf [.text "a", .node "script" [.text "x"], .text " b"]

/-- `a<!-- -->b` -/
def commentPage : Doc := pageOf [.text "a", .comment, .text " b"]

example : pageCheck skippedPage = true ∧ pageText skippedPage = .ok "a b".toList ∧
    pageCheck commentPage = true ∧ pageText commentPage = .ok "a b".toList := by decide +kernel

example : stripAll (pageContent skippedPage) = stripAll (pageContent commentPage) ∧
    pageStyle skippedPage = pageStyle commentPage ∧
    (pageContext skippedPage).fontOf = (pageContext commentPage).fontOf := 
  ⟨sameAll_eq _ _ (by decide +kernel), by decide +kernel, page_font _ _⟩

/-! ### C38 -/

/-- **C38** When the construction completes, each element that generates a box has its
own box in its layout data, hidden elements have none, and nothing is left borrowed. -/
theorem C38_slots_filled (h : Built C kids st id cs L n r) :
    ∀ e ∈ entriesOf cs, Settled e.2 (r.2.2 e.1) := by
  obtain ⟨hg, rfl⟩ := h.result
  exact (containerOf_settled C st L (h.shows.nodup h.forest) hg h.shows.faithful).1

/-- whether the cells of nodes hold a block-level box, an inline-level box, nothing …, and
whether they are borrowed -/
def cells (r : Except Panic (BlockContainer × Bool × LayoutData)) (l : List NodeId) :
    List (String × Bool) :=
  match r with
  | .ok (_, _, L) => l.map fun x => (match (L x).selfBox with
    | none => "none"
    | some .displayContents => "contents"
    | some (.blockLevel _) => "block"
    | some (.inlineLevel _) => "inline", (L x).borrowed)
  | .error _ => []

/-- an element of each kind -/
def kindsPage : Doc := pageOf [.node "p" [.node "em" [.text "a"]], .node "contents" [.text "b"],
  .node "script" [], .node "abs" [.text "c"], .node "float" [.text "d"]]

example : pageCheck kindsPage = true ∧ idsOf (pageContent kindsPage) = [4, 5, 7, 9, 10, 12] ∧
    cells (pageBoxes kindsPage) [4, 5, 7, 9, 10, 12] = [("block", false), ("inline", false),
      ("contents", false), ("none", false), ("inline", false), ("inline", false)] := by
  decide +kernel

/-! ### C64 -/

/-- **C64, full statement**: each visible character is laid out with the style and font of
the text it comes from. -/
def C64_full : Prop :=
  ∀ (C : BoxContext) (kids : NodeId → List NodeId) (st : Style) (id : NodeId) (cs : List Styled)
    (L : LayoutData) (n : Nat) (r : BlockContainer × Bool × LayoutData),
    Built C kids st id cs L n r → r.1.ink = inkOf C.fontOf cs

/-- `<br>a  b` -/
def breakPage : Doc := pageOf [.node "br" [], .text "a  b"]

/-- **C64 is false**: text after a leading `<br>` is laid out in the style of `<br>`, that is
with `white-space: pre`. -/
theorem C64_full_false : ¬ C64_full := by
  intro h
  have h1 : pageCheck breakPage = true := by decide +kernel
  have h2 : pageText breakPage = .ok "\na b".toList := by decide +kernel
  obtain ⟨r, hr, ht⟩ := page_ok h2
  have h3 := h _ _ _ _ _ _ _ _ (built_page h1 hr)
  have h4 := congrArg (List.map fun x => x.1.val .whiteSpace) h3
  have h5 : (match pageBoxes breakPage with
    | .ok r => r.1.ink.map fun x => x.1.val .whiteSpace
    | .error _ => []) = [.pre, .pre] := by decide +kernel
  have h6 : ((inkOf (pageContext breakPage).fontOf (pageContent breakPage)).map
    fun x => x.1.val .whiteSpace) = [.normal, .normal] := by decide +kernel
  rw [hr] at h5
  simp only at h5
  rw [h5, h6] at h4
  revert h4
  decide

/-- **C64, what holds**: it is true of content where all texts directly in an element have
its style, but for line breaks immediately after text. -/
theorem C64_text_style_partial (h : Built C kids st id cs L n r) (hu : uniformAll st false cs = true) :
    r.1.ink = inkOf C.fontOf cs := by
  obtain ⟨hg, rfl⟩ := h.result
  exact containerOf_ink C st hg hu

example : pageCheck calmPage = true ∧ pageText calmPage = .ok "a b c d\ne".toList ∧
    uniformAll (pageStyle calmPage) false (pageContent calmPage) = true := by decide +kernel

end Sinab
