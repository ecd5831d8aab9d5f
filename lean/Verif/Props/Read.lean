import Verif.Lemmas.ReadDoc
import Verif.Lemmas.BoxSound
import Verif.Props.Construct
import Verif.Props.Paint

/-! # What is written on a page: C61, C65

`Page` says that a document was laid out completely.  Its lines are `rowsAll`, what is
drawn are the calls of `paintPage`. -/

namespace Sinab

/-- In context `C` with the forest `kids`, the root element has style `st` and content `cs`;
its boxes are `b`, and laid out on a page of the given size they become `fs`. -/
structure Page (C : BoxContext) (E : TextEnv) (kids : NodeId → List NodeId) (st : Style)
    (cs : List Styled) (b : Bfc) (size : PVec2 Length) (fs : List Fragment) : Prop where
  forest : C.doc.WF kids
  /-- styles are those of the cascade, fonts those of the device -/
  context : ∃ (S : SelectorEngine) (K : CssColors) (tokenize : AttrTokenizer) (ua author : StyleSet S)
    (d : Doc), C = BoxContext.of K tokenize ua author d E
  content : ∃ root, C.doc.rootElement C.doc.len = .ok root ∧ root < C.doc.len ∧
    C.styleOf root none = .ok st ∧ Shows C kids st (kids root) cs
  shown : st.val .display ≠ .none
  boxes : ∃ n, boxTree C n = .ok b
  laidOut : rootLayout E b size = .ok fs

/-- what is drawn of texts: the characters, font and colour of each -/
def drawnTexts (size : PVec2 Length) (fs : List Fragment) : List (String × GCtx × RGBA) :=
  (paintPage size fs).calls.filterMap DrawCall.text?

/-- the visible characters that are drawn, in the order in which they are drawn, with the
font and colour they are drawn in -/
def drawnInk (size : PVec2 Length) (fs : List Fragment) : List (GCtx × RGBA × Char) :=
  (drawnTexts size fs).flatMap fun p =>
    (p.1.toList.filter fun c => !htmlSpace c).map fun c => (p.2.1, p.2.2, c)

/-- a visible character as it must be drawn: the font and the colour of its style -/
def inkCall (p : Style × Font × Char) : GCtx × RGBA × Char := (p.2.1.gc, p.1.val .color, p.2.2)

variable {C : BoxContext} {E : TextEnv} {kids : NodeId → List NodeId} {st : Style}
  {cs : List Styled} {b : Bfc} {size : PVec2 Length} {fs : List Fragment}

theorem Page.sound (h : Page C E kids st cs b size fs) : b.sound := by
  obtain ⟨S, K, tokenize, ua, author, d, rfl⟩ := h.context
  obtain ⟨n, hn⟩ := h.boxes
  exact boxTree_sound (styleSound_of K tokenize ua author d E) hn

/-- the boxes of a page -/
theorem Page.tree (h : Page C E kids st cs b size fs) : goodContent cs = true ∧
    ∃ fl, b = .mk (.blockLevelBoxes [
      if (st.val .position).isAbsolutelyPositioned then
        .outOfFlowAbsolutelyPositionedBox st (.mk (containerOf C st cs).1 (containerOf C st cs).2.1)
      else if (st.val .float).isFloating then
        .outOfFlowFloatBox st (.mk (containerOf C st cs).1 (containerOf C st cs).2.1)
      else .independent st (.mk (containerOf C st cs).1 (containerOf C st cs).2.1)]) fl := by
  obtain ⟨root, hr, hid, hst, hs⟩ := h.content
  obtain ⟨n, hb⟩ := h.boxes
  unfold boxTree at hb
  rw [hr] at hb
  simp only [bind, Except.bind, hst] at hb
  unfold constructRoot at hb
  rw [if_neg h.shown] at hb
  cases hc : constructContainer C n st root LayoutData.fresh with
  | error e => rw [hc] at hb; cases hb
  | ok r =>
    have hB : Built C kids st root cs LayoutData.fresh n r := ⟨h.forest, hid, hs, fun _ _ => rfl, hc⟩
    obtain ⟨hg, hres⟩ := hB.result
    refine ⟨hg, ?_⟩
    rw [hc, hres] at hb
    simp only [bind, Except.bind, pure, Except.pure] at hb
    split
    · rename_i ha
      rw [if_pos ha] at hb
      injection hb with hb
      exact ⟨_, hb.symm⟩
    · rename_i ha
      rw [if_neg ha] at hb
      split
      · rename_i hf
        rw [if_pos hf] at hb
        injection hb with hb
        exact ⟨_, hb.symm⟩
      · rename_i hf
        rw [if_neg hf] at hb
        injection hb with hb
        exact ⟨_, hb.symm⟩

theorem Page.ink (h : Page C E kids st cs b size fs) (hu : uniformAll st false cs = true) :
    b.ink = inkOf E.font cs := by
  have hf : C.fontOf = E.font := by
    obtain ⟨S, K, tokenize, ua, author, d, rfl⟩ := h.context
    rfl
  obtain ⟨hg, fl, rfl⟩ := h.tree
  rw [← hf, ← containerOf_ink C st hg hu]
  simp only [Bfc.ink, BlockContainer.ink, blockInk, List.append_nil]
  split
  · rfl
  · split <;> rfl

theorem outOfFlow_false {s : Style} (h : s.outOfFlow = false) :
    (s.val .position).isAbsolutelyPositioned = false ∧ (s.val .float).isFloating = false := by
  simpa [Style.outOfFlow] using h

theorem Page.flow (h : Page C E kids st cs b size fs) (ho : st.outOfFlow = false) :
    (inflowAll cs = true → b.flowOnly = true) ∧ b.ifcs = (containerOf C st cs).1.ifcs := by
  obtain ⟨_, fl, rfl⟩ := h.tree
  obtain ⟨h1, h2⟩ := outOfFlow_false ho
  rw [if_neg (by simp [h1]), if_neg (by simp [h2])]
  refine ⟨fun hi => ?_, ?_⟩
  · simpa [Bfc.flowOnly, BlockContainer.flowOnly, blockFlowOnly, BlockLevelBox.flowOnly] using
      containerOf_flowOnly C st hi
  · simp [Bfc.ifcs, BlockContainer.ifcs, blockIfcs, BlockLevelBox.ifcs]

theorem Page.floatless (h : Page C E kids st cs b size fs)
    (ho : ((st.val .position).isAbsolutelyPositioned || !(st.val .float).isFloating) = true)
    (hi : unfloatingAll cs = true) : b.floatless = true := by
  obtain ⟨_, fl, rfl⟩ := h.tree
  have := containerOf_floatless C st hi
  simp only [Bfc.floatless, BlockContainer.floatless, blockFloatless, Bool.and_true]
  split
  · exact this
  · rename_i ha
    have : (st.val .float).isFloating = false := by simpa [ha] using ho
    rw [if_neg (by simp [this])]
    assumption

/-! ## What is drawn -/

mutual

theorem Fragment.places_texts : ∀ (f : Fragment) (anc : List Fragment),
    ((f.places anc).filterMap fun p => p.2.ownText) =
      f.inked.map fun p => (String.ofList p.2.2, p.2.1.gc, p.1.val .color)
  | .box s g m cs, anc => by
    rw [Fragment.places, List.filterMap_cons, Fragment.inked]
    exact placesAll_texts cs _
  | .anonymous r cs m, anc => by
    rw [Fragment.places, List.filterMap_cons, Fragment.inked]
    exact placesAll_texts cs _
  | .text s r t, anc => rfl

theorem placesAll_texts : ∀ (fs : List Fragment) (anc : List Fragment),
    ((placesAll anc fs).filterMap fun p => p.2.ownText) =
      (inkedAll fs).map fun p => (String.ofList p.2.2, p.2.1.gc, p.1.val .color)
  | [], _ => rfl
  | f :: fs, anc => by
    rw [placesAll, List.filterMap_append, Fragment.places_texts f anc, placesAll_texts fs anc,
      inkedAll, List.map_append]

end

theorem drawnInk_eq (h : uprightAll fs) :
    drawnInk size fs = (inkOfTexts (inkedAll fs)).map inkCall := by
  unfold drawnInk drawnTexts paintPage
  rw [C55_texts _ _ h, placesAll_texts]
  unfold inkOfTexts
  induction inkedAll fs with
  | nil => rfl
  | cons p ps ih =>
    simp only [List.map_cons, List.flatMap_cons, ih, List.map_append, List.map_map]
    congr 1
    simp [inkCall]

/-- **C61** Everything that is drawn is on a line: the texts drawn are the texts of the
lines, from the first to the last line, each with the font of its piece and the colour of
its style. -/
theorem C61_lines_drawn (h : Page C E kids st cs b size fs) :
    drawnTexts size fs =
      (rowsAll fs).flatten.map fun p => (String.ofList p.2.2, p.2.1.gc, p.1.val .color) := by
  obtain ⟨_, J, _, _, h3, _⟩ := rootLayout_covers h.sound h.laidOut
  unfold drawnTexts paintPage
  rw [C55_texts _ _ (rootLayout_up h.laidOut), placesAll_texts, h3]

/-- **C61** For documents in which nothing is taken out of the flow and text has the style
of its element, if hyphens are in words that fit the lines: the visible characters drawn
are those of the document in document order, each in the font and the colour of its
style. -/
theorem C61_characters (h : Page C E kids st cs b size fs)
    (hi : st.outOfFlow = false ∧ inflowAll cs = true) (hu : uniformAll st false cs = true)
    (hf : ∀ w ∈ lineWidthsAll fs, ∀ i ∈ b.ifcs, RunsFit E w (inlineInked i)) :
    drawnInk size fs = (inkOf E.font cs).map inkCall := by
  have hfl := (h.flow hi.1).1 hi.2
  have hc := rootLayout_covers h.sound h.laidOut
  rw [drawnInk_eq (rootLayout_up h.laidOut), (covers_ink hc hf).2 hfl, Bfc.flow_ink b hfl, h.ink hu]

/-- **C65** With absolutely positioned elements, but without floats: no visible character
is lost, drawn twice, or drawn in another font or colour. -/
theorem C65_characters (h : Page C E kids st cs b size fs)
    (ho : ((st.val .position).isAbsolutelyPositioned || !(st.val .float).isFloating) = true)
    (hi : unfloatingAll cs = true) (hu : uniformAll st false cs = true)
    (hf : ∀ w ∈ lineWidthsAll fs, ∀ i ∈ b.ifcs, RunsFit E w (inlineInked i)) :
    (drawnInk size fs).Perm ((inkOf E.font cs).map inkCall) := by
  have hc := rootLayout_covers h.sound h.laidOut
  rw [drawnInk_eq (rootLayout_up h.laidOut), ← h.ink hu]
  exact (((covers_ink hc hf).1).trans (Bfc.ifcs_ink b (h.floatless ho hi))).map _

theorem runsFit_of_ink {is : List (List InlineLevelBox)}
    (h : ∀ p ∈ is.flatMap ifcInk, p.2.2 ≠ '-') (w : ℚ) : ∀ i ∈ is, RunsFit E w (inlineInked i) := by
  intro i hi r hr
  refine .inl fun hm => ?_
  refine h (r.1, r.2.1, '-') ?_ rfl
  refine List.mem_flatMap.2 ⟨i, hi, List.mem_flatMap.2 ⟨r, hr, ?_⟩⟩
  exact List.mem_map.2 ⟨'-', List.mem_filter.2 ⟨hm, by decide⟩, rfl⟩

/-- **C61** In particular for all documents without hyphens. -/
theorem C61_characters_hyphenless (h : Page C E kids st cs b size fs)
    (hi : st.outOfFlow = false ∧ inflowAll cs = true) (hu : uniformAll st false cs = true)
    (hh : ∀ p ∈ inkOf E.font cs, p.2.2 ≠ '-') :
    drawnInk size fs = (inkOf E.font cs).map inkCall := by
  refine C61_characters h hi hu fun w _ => runsFit_of_ink (fun p hp => ?_) w
  rw [Bfc.flow_ink b ((h.flow hi.1).1 hi.2), h.ink hu] at hp
  exact hh p hp

/-- **C65** In particular for all documents without hyphens. -/
theorem C65_characters_hyphenless (h : Page C E kids st cs b size fs)
    (ho : ((st.val .position).isAbsolutelyPositioned || !(st.val .float).isFloating) = true)
    (hi : unfloatingAll cs = true) (hu : uniformAll st false cs = true)
    (hh : ∀ p ∈ inkOf E.font cs, p.2.2 ≠ '-') :
    (drawnInk size fs).Perm ((inkOf E.font cs).map inkCall) := by
  refine C65_characters h ho hi hu fun w _ => runsFit_of_ink (fun p hp => ?_) w
  have := (Bfc.ifcs_ink b (h.floatless ho hi)).subset hp
  rw [h.ink hu] at this
  exact hh p this

/-! ## Words -/

theorem units_filter (L : List (List Inked)) :
    unitsOn (L.filter fun r => decide (r ≠ [])) = unitsOn L := by
  induction L with
  | nil => rfl
  | cons l L ih =>
    by_cases h : l = []
    · subst h
      simp only [List.filter_cons, ne_eq, not_true_eq_false, decide_false, unitsOn,
        List.flatMap_cons] at ih ⊢
      exact ih
    · simp only [List.filter_cons, h, ne_eq, not_false_eq_true, decide_true, if_true, unitsOn,
        List.flatMap_cons] at ih ⊢
      rw [ih]

theorem covers_units {is : List (List InlineLevelBox)}
    (h : Covers E fs [] is true) (hf : ∀ w ∈ lineWidthsAll fs, ∀ i ∈ is, Readable E w i) :
    unitsOn (rowsAll fs) = ifcUnits is := by
  obtain ⟨_, J, a1, a2, _, _, a5⟩ := h
  have a5 := (a5 rfl).2
  rw [a2, ← a5]
  have : ∀ K : List Job, (∀ j ∈ K, j ∈ J) →
      unitsOn (K.flatMap Job.rows) = ifcUnits (K.map Job.boxes) := by
    intro K
    induction K with
    | nil => intro _; rfl
    | cons j K ih =>
      intro hK
      have hj := hK j (by simp)
      have hm : j.boxes ∈ is := by rw [← a5]; exact List.mem_map_of_mem hj
      have h1 := laysOut_units (a1 j hj).1 (hf _ (a1 j hj).2 _ hm)
      have h2 : unitsOn j.rows = (j.lines.map lineText).flatMap units := by
        unfold Job.rows
        rw [units_filter]
        unfold unitsOn
        rw [List.flatMap_map, List.flatMap_map]
        rfl
      have ih' := ih fun k hk => hK k (by simp [hk])
      unfold ifcUnits at ih'
      unfold unitsOn at ih' h2
      unfold unitsOn ifcUnits
      rw [List.flatMap_cons, List.flatMap_append, h2, h1, ih', List.map_cons, List.flatMap_cons]
  exact this J fun j h => h

/-- **C61, what holds** For documents in which nothing is taken out of the flow, no inline
element begins with white space that separates words (C33), and the content can be read
at the widths of the lines (`Readable`: no word is longer than a line, different runs of
text do not meet inside of a word, and where they meet nothing visible is narrower than a
space): what is read on the lines of the page is what is read in the document.  Words may be
broken after hyphens. -/
theorem C61_words_partial (h : Page C E kids st cs b size fs)
    (hi : st.outOfFlow = false ∧ inflowAll cs = true) (hc : neatAll [] cs = true)
    (hr : ∀ w ∈ lineWidthsAll fs, ∀ i ∈ b.ifcs, Readable E w i) :
    unitsOn (rowsAll fs) = units (plainText cs) := by
  have hfl := h.flow hi.1
  have hcov := rootLayout_covers h.sound h.laidOut
  rw [hfl.1 hi.2] at hcov
  rw [covers_units hcov hr, hfl.2, containerOf_units C st h.tree.1 hi.2 hc]

theorem unitsFrom_words : ∀ (t cur : Text), '-' ∉ t → unitsFrom cur t = wordsFrom cur t
  | [], _, _ => rfl
  | c :: t, cur, h => by
    simp only [List.mem_cons, not_or] at h
    simp only [unitsFrom, wordsFrom]
    rw [if_neg (Ne.symm h.1), unitsFrom_words t [] h.2, unitsFrom_words t _ h.2]

/-- without hyphens, units are words -/
theorem units_words {t : Text} (h : '-' ∉ t) : units t = words t := unitsFrom_words t [] h

theorem unitsFrom_chars : ∀ (t cur : Text) (u : Text), u ∈ unitsFrom cur t → ∀ c ∈ u, c ∈ cur ∨ c ∈ t
  | [], cur, u, hu, c, hc => by
    unfold unitsFrom at hu
    split at hu
    · cases hu
    · rw [List.mem_singleton] at hu; subst hu; exact .inl hc
  | d :: t, cur, u, hu, c, hc => by
    unfold unitsFrom at hu
    split at hu
    · split at hu
      · rcases unitsFrom_chars t [] u hu c hc with h | h
        · cases h
        · exact .inr (List.mem_cons_of_mem _ h)
      · rcases List.mem_cons.1 hu with rfl | hu
        · exact .inl hc
        · rcases unitsFrom_chars t [] u hu c hc with h | h
          · cases h
          · exact .inr (List.mem_cons_of_mem _ h)
    · split at hu
      · rcases List.mem_cons.1 hu with rfl | hu
        · rcases List.mem_append.1 hc with h | h
          · exact .inl h
          · exact .inr (by simp at h; simp [h])
        · rcases unitsFrom_chars t [] u hu c hc with h | h
          · cases h
          · exact .inr (List.mem_cons_of_mem _ h)
      · rcases unitsFrom_chars t _ u hu c hc with h | h
        · rcases List.mem_append.1 h with h | h
          · exact .inl h
          · exact .inr (by simp at h; simp [h])
        · exact .inr (List.mem_cons_of_mem _ h)

theorem hyphen_unit : ∀ (t cur : Text), '-' ∈ t → ∃ u ∈ unitsFrom cur t, '-' ∈ u
  | c :: t, cur, h => by
    unfold unitsFrom
    by_cases hc : c = '-'
    · subst hc
      rw [if_neg (by decide), if_pos rfl]
      exact ⟨_, List.mem_cons_self, by simp⟩
    · have ht : '-' ∈ t := by
        rcases List.mem_cons.1 h with h | h
        · exact absurd h.symm hc
        · exact h
      rw [if_neg hc]
      split
      · obtain ⟨u, hu, h1⟩ := hyphen_unit t [] ht
        split
        · exact ⟨u, hu, h1⟩
        · exact ⟨u, List.mem_cons_of_mem _ hu, h1⟩
      · exact hyphen_unit t _ ht

/-- **C61, what holds** In the same class, for documents without hyphens: the words read on
the page are the words of the document. -/
theorem C61_hyphenless_partial (h : Page C E kids st cs b size fs)
    (hi : st.outOfFlow = false ∧ inflowAll cs = true) (hc : neatAll [] cs = true)
    (hh : '-' ∉ plainText cs)
    (hr : ∀ w ∈ lineWidthsAll fs, ∀ i ∈ b.ifcs, Readable E w i) :
    wordsOn (rowsAll fs) = words (plainText cs) := by
  have h1 := C61_words_partial h hi hc hr
  rw [← units_words hh, ← h1]
  have hrow : ∀ r ∈ rowsAll fs, '-' ∉ rowText r := by
    intro r hr' hm
    obtain ⟨u, hu, h2⟩ := hyphen_unit _ [] hm
    have : u ∈ unitsOn (rowsAll fs) := List.mem_flatMap.2 ⟨r, hr', hu⟩
    rw [h1] at this
    rcases unitsFrom_chars _ [] u this _ h2 with h3 | h3
    · cases h3
    · exact hh h3
  unfold wordsOn unitsOn
  generalize rowsAll fs = rows at hrow
  induction rows with
  | nil => rfl
  | cons r rows ih =>
    rw [List.flatMap_cons, List.flatMap_cons, units_words (hrow r (by simp)),
      ih fun r hr => hrow r (by simp [hr])]

/-- inline content with one run of text can be read if its words fit -/
theorem readable_one {w : ℚ} {st' : Style} {f : Font} {t : Text}
    (h0 : E.width f [] = 0) (hf : WordsFit (E.width f) w t) :
    Readable E w [.textRun st' t f] := by
  refine ⟨⟨trivial, trivial⟩, ?_, ?_, ?_, ?_⟩
  · simpa [inlineInked, InlineLevelBox.inks] using hf
  · simpa [inlineInked, InlineLevelBox.inks] using h0
  · exact ⟨.inl (.inl rfl), .inl rfl, trivial⟩
  · simp [inlineInked, InlineLevelBox.inks]

/-! ## Examples and counterexamples -/

/-- fonts for examples: 10 px per character -/
def readEnv : TextEnv := ⟨fun st => ⟨st.val .fontSize, 12, 4, 4, GCtx.new⟩, fun _ t => 10 * t.length⟩

/-- the style of the root element -/
def rootStyle (d : Doc) : Style :=
  match (pageContext d).styleOf 2 none with
  | .ok s => s
  | .error _ => Style.initial

/-- the content of the root element -/
def rootContent (d : Doc) : List Styled :=
  (readContent (pageContext d) (linkedKids d) 40 (rootStyle d) (linkedKids d 2)).getD []

/-- the boxes of a page and its layout -/
def pageRead (E : TextEnv) (d : Doc) (width : ℚ) : Option (Bfc × List Fragment) :=
  match boxTree (pageContext d) 40 with
  | .ok b => match rootLayout E b ⟨width, 100⟩ with
    | .ok fs => some (b, fs)
    | .error _ => none
  | .error _ => none

/-- a page is a forest, its root element is shown, and its content can be read -/
def rootCheck (d : Doc) : Bool :=
  forestCheck d && decide (2 < d.len) &&
    (readContent (pageContext d) (linkedKids d) 40 (rootStyle d) (linkedKids d 2)).isSome &&
    (match (pageContext d).doc.rootElement d.len, (pageContext d).styleOf 2 none with
    | .ok r, .ok s => decide (r = 2) && decide (s.val .display ≠ .none)
    | _, _ => false)

theorem rootCheck_page {E : TextEnv} {d : Doc} {b : Bfc} {fs : List Fragment} {width : ℚ}
    (hE : E.font = readEnv.font) (h : rootCheck d = true) (hp : pageRead E d width = some (b, fs)) :
    Page (pageContext d) E (linkedKids d) (rootStyle d) (rootContent d) b ⟨width, 100⟩ fs := by
  simp only [rootCheck, Bool.and_eq_true, decide_eq_true_eq] at h
  obtain ⟨⟨⟨h1, h2⟩, h3⟩, h4⟩ := h
  have hst : ∃ s, (pageContext d).doc.rootElement d.len = .ok 2 ∧ (pageContext d).styleOf 2 none = .ok s ∧
      s.val .display ≠ .none := by
    split at h4
    · rename_i r s e1 e2
      simp only [Bool.and_eq_true, decide_eq_true_eq] at h4
      exact ⟨s, by rw [e1, h4.1], e2, h4.2⟩
    · cases h4
  obtain ⟨s, e1, e2, e3⟩ := hst
  have es : rootStyle d = s := by unfold rootStyle; rw [e2]
  refine ⟨forestCheck_wf h1, ⟨nameEngine, _, _, _, _, d, by
      simp only [BoxContext.of, hE]; rfl⟩,
    ⟨2, e1, h2, by rw [es]; exact e2, ?_⟩, by rw [es]; exact e3, ⟨40, ?_⟩, ?_⟩
  · obtain ⟨cs, hcs⟩ := Option.isSome_iff_exists.1 h3
    rw [rootContent, hcs]
    exact readContent_shows hcs
  · unfold pageRead at hp
    split at hp
    · split at hp
      · rename_i e _ _ _
        injection hp with hp
        injection hp with hp1 hp2
        subst hp1
        exact e
      · cases hp
    · cases hp
  · unfold pageRead at hp
    split at hp
    · split at hp
      · rename_i e
        injection hp with hp
        injection hp with hp1 hp2
        subst hp1 hp2
        exact e
      · cases hp
    · cases hp

/-- the words on the lines of a page -/
def pageWords (E : TextEnv) (d : Doc) (width : ℚ) : Option (List Text) :=
  (pageRead E d width).map fun p => wordsOn (rowsAll p.2)

/-- **C61, as stated**: the words on the page are those of the document, for documents
without hyphens, floats and absolutely positioned elements, and without white space at
the start of inline elements. -/
def C61_full : Prop :=
  ∀ (C : BoxContext) (E : TextEnv) (kids : NodeId → List NodeId) (st : Style) (cs : List Styled)
    (b : Bfc) (size : PVec2 Length) (fs : List Fragment), Page C E kids st cs b size fs →
    st.outOfFlow = false ∧ inflowAll cs = true → uniformAll st false cs = true →
    neatAll [] cs = true → '-' ∉ plainText cs → wordsOn (rowsAll fs) = words (plainText cs)

/-- a page and the words on it and in it -/
theorem pageWords_page {E : TextEnv} {d : Doc} {width : ℚ} {ws : List Text}
    (hE : E.font = readEnv.font) (h : rootCheck d = true) (hw : pageWords E d width = some ws) :
    ∃ b fs, Page (pageContext d) E (linkedKids d) (rootStyle d) (rootContent d) b ⟨width, 100⟩ fs ∧
      pageRead E d width = some (b, fs) ∧ wordsOn (rowsAll fs) = ws := by
  unfold pageWords at hw
  cases hp : pageRead E d width with
  | none => rw [hp] at hw; cases hw
  | some p =>
    rw [hp] at hw
    injection hw with hw
    exact ⟨p.1, p.2, rootCheck_page hE h hp, rfl, hw⟩

/-- `foo<b>bar</b>` -/
def splitWord : Doc := pageOf [.text "foo", .node "b" [.text "bar"]]

/-- **C61 does not hold as stated**: `foo<b>bar</b>` is broken inside of the word, because a
line may be broken at the start of every run of text. -/
theorem C61_full_false : ¬ C61_full := by
  intro h
  have hw : pageWords readEnv splitWord 50 = some ["foo".toList, "bar".toList] := by decide +kernel
  obtain ⟨b, fs, hp, _, hr⟩ := pageWords_page rfl (by decide +kernel) hw
  have := h _ _ _ _ _ _ _ _ hp (by decide +kernel) (by decide +kernel) (by decide +kernel)
    (by decide +kernel)
  rw [hr] at this
  revert this
  decide +kernel

/-- fonts for examples: 10 px per character, but 2 px for an i -/
def thinEnv : TextEnv := ⟨readEnv.font, fun _ t => 10 * t.length - 8 * t.count 'i'⟩

/-- `foo <b>i</b>` -/
def thinWord : Doc := pageOf [.text "foo ", .node "b" [.text "i"]]

/-- **C61, another defect**: words are also run together.  If there is space for `foo` but not
for the space behind it, the space is dropped but the line is not ended, and an `i` in the
next run of text, narrower than a space, is put immediately behind the word. -/
theorem C61_words_run_together :
    pageWords thinEnv thinWord 35 = some ["fooi".toList] ∧
    words (plainText (rootContent thinWord)) = ["foo".toList, "i".toList] ∧
    (∃ b fs, Page (pageContext thinWord) thinEnv (linkedKids thinWord) (rootStyle thinWord)
      (rootContent thinWord) b ⟨35, 100⟩ fs) := by
  have hw : pageWords thinEnv thinWord 35 = some ["fooi".toList] := by decide +kernel
  have hE : thinEnv.font = readEnv.font := rfl
  refine ⟨hw, by decide +kernel, ?_⟩
  obtain ⟨b, fs, hp, _⟩ := pageWords_page hE (by decide +kernel) hw
  exact ⟨b, fs, hp⟩

/-! A page in the class of C61. -/

/-- the conditions of `Apart`, computed -/
def apartCheck (q : Text) : List Inked → Bool
  | [] => true
  | r :: rs => (atGap q || r.2.2.head?.any htmlSpace || decide (r.2.2 = [])) &&
      (decide (q = []) || decide (r.2.2.head? ≠ some '-')) && apartCheck (q ++ r.2.2) rs

theorem apartCheck_apart : ∀ (rs : List Inked) (q : Text), apartCheck q rs = true → Apart q rs
  | [], _, _ => trivial
  | r :: rs, q, h => by
    simp only [apartCheck, Bool.and_eq_true, Bool.or_eq_true, decide_eq_true_eq] at h
    refine ⟨?_, h.1.2, apartCheck_apart rs _ h.2⟩
    rcases h.1.1 with (h | h) | h
    · exact .inl (atGap_breaksBehind h)
    · cases hr : r.2.2 with
      | nil => rw [hr] at h; cases h
      | cons c t => rw [hr] at h; exact .inr (.inl ⟨c, t, rfl, h⟩)
    · exact .inr (.inr h)

mutual

/-- the conditions of `inlineEdged`, computed -/
def InlineLevelBox.edgedCheck (w : ℚ) : InlineLevelBox → Bool
  | .inlineBox st _ _ ks =>
    decide (0 ≤ startSpace w st) && (decide (0 ≤ endSpace w st) && inlineEdgedCheck w ks)
  | .textRun .. | .outOfFlowAbsolutelyPositionedBox _ _ | .outOfFlowFloatBox _ _ => true

def inlineEdgedCheck (w : ℚ) : List InlineLevelBox → Bool
  | [] => true
  | b :: bs => b.edgedCheck w && inlineEdgedCheck w bs

end

mutual

theorem InlineLevelBox.edgedCheck_edged (w : ℚ) : ∀ b : InlineLevelBox, b.edgedCheck w = true → b.edged w
  | .inlineBox st _ _ ks, h => by
    simp only [InlineLevelBox.edgedCheck, Bool.and_eq_true, decide_eq_true_eq] at h
    exact ⟨h.1, h.2.1, inlineEdgedCheck_edged w ks h.2.2⟩
  | .textRun .., _ | .outOfFlowAbsolutelyPositionedBox _ _, _ | .outOfFlowFloatBox _ _, _ => trivial

theorem inlineEdgedCheck_edged (w : ℚ) : ∀ bs : List InlineLevelBox, inlineEdgedCheck w bs = true →
    inlineEdged w bs
  | [], _ => trivial
  | b :: bs, h => by
    simp only [inlineEdgedCheck, Bool.and_eq_true] at h
    exact ⟨b.edgedCheck_edged w h.1, inlineEdgedCheck_edged w bs h.2⟩

end

/-- inline content in the fonts of the examples that can be read, with runs no longer than
a line -/
def readCheck (w : ℚ) (bs : List InlineLevelBox) : Bool :=
  inlineEdgedCheck w bs && apartCheck [] (inlineInked bs) &&
    (inlineInked bs).all fun r => r.1.wraps && decide (10 * (r.2.2.length : ℚ) ≤ w)

theorem readCheck_readable {w : ℚ} {bs : List InlineLevelBox} (h : readCheck w bs = true) :
    Readable readEnv w bs := by
  simp only [readCheck, Bool.and_eq_true, List.all_eq_true, decide_eq_true_eq] at h
  refine ⟨inlineEdgedCheck_edged w bs h.1.1, ?_, ?_, apartCheck_apart _ _ h.1.2, ?_⟩
  · intro r hr a u c he hu
    have h1 := (h.2 r hr).2
    rw [he] at h1
    simp only [List.length_append, Nat.cast_add] at h1
    have : (0 : ℚ) ≤ a.length := by positivity
    have : (0 : ℚ) ≤ c.length := by positivity
    show (10 : ℚ) * u.length ≤ w
    linarith
  · intro r _; simp [readEnv]
  · refine List.pairwise_of_forall_mem_list fun r _ r' hr' _ => ⟨(h.2 r' hr').1, fun a c t _ => ?_⟩
    have : (0 : ℚ) ≤ t.length := by positivity
    simp only [readEnv, List.length_append, List.length_cons, List.length_nil]
    push_cast
    linarith

/-- `<p>one two</p>three <em>four five</em><div>six</div>` -/
def storyPage : Doc := pageOf [.node "p" [.text "one  two"], .text "three ",
  .node "em" [.text "four five"], .node "div" [.text "six "]]

/-- C61: the words of the page and of the document; a line is broken between two words -/
example : pageWords readEnv storyPage 120 = some ["one".toList, "two".toList, "three".toList,
      "four".toList, "five".toList, "six".toList] ∧
    ((pageRead readEnv storyPage 120).map fun p => (rowsAll p.2).map fun r => String.ofList (rowText r)) =
      some ["one two", "three four", "five", "six "] := by decide +kernel

/-- the page is in the class of C61 -/
example : rootCheck storyPage = true ∧ (rootStyle storyPage).outOfFlow = false ∧
    inflowAll (rootContent storyPage) = true ∧ neatAll [] (rootContent storyPage) = true ∧
    uniformAll (rootStyle storyPage) false (rootContent storyPage) = true ∧
    '-' ∉ plainText (rootContent storyPage) ∧
    ((pageRead readEnv storyPage 120).map fun p =>
      (lineWidthsAll p.2).all fun w => p.1.ifcs.all fun i => readCheck w i) = some true := by
  decide +kernel

/-- `a<abs>b</abs>c` -/
def absTextPage : Doc := pageOf [.text "a", .node "abs" [.text "b"], .text "c"]

/-- C65: the absolutely positioned text is drawn after the text in the flow, in the same
page -/
example : rootCheck absTextPage = true ∧ (rootStyle absTextPage).outOfFlow = false ∧
    unfloatingAll (rootContent absTextPage) = true ∧ inflowAll (rootContent absTextPage) = false ∧
    uniformAll (rootStyle absTextPage) false (rootContent absTextPage) = true ∧
    ((pageRead readEnv absTextPage 120).map fun p =>
      (drawnInk ⟨120, 100⟩ p.2).map fun c => c.2.2) = some ['a', 'c', 'b'] ∧
    (inkOf readEnv.font (rootContent absTextPage)).map (fun c => c.2.2) = ['a', 'b', 'c'] := by
  decide +kernel

end Sinab
