import Verif.Lemmas.RowsLayout
import Verif.Props.Decor

/-! Where texts are on the page: no two overlap, and they are in reading order (C75). -/

namespace Sinab

/-! ## What is drawn -/

theorem ownCalls_isText (o : PVec2 Length) (f : Fragment) :
    (ownCalls o f).filter DrawCall.isText = match f with
      | .text st r t => [.text (String.ofList t.glyphs) (r.startCorner.inline + o.x)
        (r.startCorner.block + o.y + t.font.ascent) t.font.gc (st.val .color)]
      | _ => [] := by
  cases f with
  | text st r t => rfl
  | anonymous r cs m => rfl
  | box st g m cs =>
    have h1 : (backgroundCall st g o).filter DrawCall.isText = [] := by
      unfold backgroundCall
      split <;> rfl
    have h2 : ([Side.top, .right, .bottom, .left].filterMap (edgeCall st g o)).filter
        DrawCall.isText = [] := by
      rw [List.filter_eq_nil_iff]
      intro c hc
      obtain ⟨s, -, hs⟩ := List.mem_filterMap.1 hc
      unfold edgeCall at hs
      split at hs
      · cases hs
        simp [DrawCall.isText]
      · cases hs
    simp only [ownCalls, List.filter_append, h1, h2, List.append_nil]
    rfl

mutual

theorem Fragment.places_boxes : ∀ (f : Fragment) (anc : List Fragment),
    ((f.places anc).flatMap fun p => ownCalls (sumOffsets p.1) p.2).filter DrawCall.isText =
      (f.textBoxes (sumOffsets anc).x (sumOffsets anc).y).map TextBox.call
  | .box st g m cs, anc => by
    rw [Fragment.places, List.flatMap_cons, List.filter_append, ownCalls_isText,
      placesAll_boxes cs, Fragment.textBoxes, sumOffsets_concat]
    rfl
  | .anonymous r cs m, anc => by
    rw [Fragment.places, List.flatMap_cons, List.filter_append, ownCalls_isText,
      placesAll_boxes cs, Fragment.textBoxes, sumOffsets_concat]
    rfl
  | .text st r t, anc => by
    rw [Fragment.places, List.flatMap_cons, List.filter_append, ownCalls_isText, Fragment.textBoxes]
    simp [TextBox.call, add_comm]

theorem placesAll_boxes : ∀ (fs anc : List Fragment),
    ((placesAll anc fs).flatMap fun p => ownCalls (sumOffsets p.1) p.2).filter DrawCall.isText =
      (textBoxesAll (sumOffsets anc).x (sumOffsets anc).y fs).map TextBox.call
  | [], _ => rfl
  | f :: fs, anc => by
    rw [placesAll, List.flatMap_append, List.filter_append, f.places_boxes, placesAll_boxes fs,
      textBoxesAll, List.map_append]

end

theorem paintPage_textBoxes (size : PVec2 Length) {fs : List Fragment} (h : uprightAll fs) :
    (paintPage size fs).calls.filter DrawCall.isText = (textBoxesAll 0 0 fs).map TextBox.call := by
  rw [page_own size fs h]
  exact placesAll_boxes fs []

mutual

theorem Fragment.textBoxes_inked : ∀ (f : Fragment) (x y : ℚ),
    (f.textBoxes x y).map (fun t => (t.style, t.font, t.text)) = f.inked
  | .box _ _ _ cs, _, _ => textBoxesAll_inked cs _ _
  | .anonymous _ cs _, _, _ => textBoxesAll_inked cs _ _
  | .text _ _ _, _, _ => rfl

theorem textBoxesAll_inked : ∀ (fs : List Fragment) (x y : ℚ),
    (textBoxesAll x y fs).map (fun t => (t.style, t.font, t.text)) = inkedAll fs
  | [], _, _ => rfl
  | f :: fs, x, y => by
    rw [textBoxesAll, List.map_append, f.textBoxes_inked, textBoxesAll_inked fs, inkedAll]

end

section

variable {C : BoxContext} {E : TextEnv} {kids : NodeId → List NodeId} {st : Style}
  {cs : List Styled} {b : Bfc} {size : PVec2 Length} {fs : List Fragment}

theorem Page.ready (h : Page C E kids st cs b size fs) (hu : uniformAll st false cs = true)
    (hc : ∀ e ∈ boxedPage st cs, Calm e) :
    b.contents.Ready E fun s => ∃ e ∈ boxedPage st cs, e.1 = s := by
  have hf : C.fontOf = E.font := by
    obtain ⟨S, K, tokenize, ua, author, d, rfl⟩ := h.context
    rfl
  have hb := h.boxed
  have hs := h.sound
  obtain ⟨hg, fl, rfl⟩ := h.tree
  refine ⟨hs, hb.2, ?_, fun e he => hc e (hb.1 ▸ he)⟩
  have hd := h.shown
  by_cases hp : (st.val .position).isAbsolutelyPositioned = true
  · have : (st, DisplayOutside.block) ∈ boxedPage st cs := by simp [boxedPage, hd, hp]
    have := (hc _ this).1
    rw [this] at hp
    cases hp
  · rw [if_neg hp]
    by_cases hfl : (st.val .float).isFloating = true
    · rw [if_pos hfl]
      exact ⟨trivial, trivial⟩
    · rw [if_neg hfl]
      have e : boxedPage st cs = (st, .block) :: boxedAll cs := by simp [boxedPage, hd, hfl]
      refine ⟨?_, trivial⟩
      rw [← hf]
      refine containerOf_selfFont C _ st hg hu ⟨(st, .block), by rw [e]; simp, rfl⟩ fun a ha => ?_
      have ha' : a ∈ boxedPage st cs := by rw [e]; exact List.mem_cons_of_mem _ ha
      exact ⟨(hc a ha').1, a, ha', rfl⟩

/-- **C75**: the texts on a page are in rows, each in the font of its element.  In a row, they are
drawn from left to right, each after the end of the one before; and the rows from top
to bottom, each below the one before. -/
theorem C75_reading_order (h : Page C E kids st cs b size fs) (hu : uniformAll st false cs = true)
    (hc : ∀ e ∈ boxedPage st cs, Calm e) (hw : ∀ f t, 0 ≤ E.width f t) :
    ∃ ts : List TextBox, (paintPage size fs).calls.filter DrawCall.isText = ts.map TextBox.call ∧
      (∀ t ∈ ts, (∃ e ∈ boxedPage st cs, e.1 = t.style) ∧ t.font = E.font t.style) ∧
      ReadingOrder E ts :=
  have k := rootLayout_rows hw (h.ready hu hc) h.laidOut
  ⟨_, paintPage_textBoxes size (rootLayout_up h.laidOut), k.2, k.1⟩

/-- **C75**: the rows have all visible characters of the document in its order, if nothing is
taken out of the flow and there are no hyphens. -/
theorem C75_characters (h : Page C E kids st cs b size fs) (hu : uniformAll st false cs = true)
    (hc : ∀ e ∈ boxedPage st cs, Calm e) (hw : ∀ f t, 0 ≤ E.width f t)
    (hi : st.outOfFlow = false ∧ inflowAll cs = true)
    (hh : ∀ p ∈ inkOf E.font cs, p.2.2 ≠ '-') :
    ∃ ts : List TextBox, (paintPage size fs).calls.filter DrawCall.isText = ts.map TextBox.call ∧
      (∀ t ∈ ts, (∃ e ∈ boxedPage st cs, e.1 = t.style) ∧ t.font = E.font t.style) ∧
      ReadingOrder E ts ∧
      (ts.flatMap fun t => (t.text.filter fun c => !htmlSpace c).map fun c => (t.style, t.font, c)) =
        inkOf E.font cs := by
  have k := rootLayout_rows hw (h.ready hu hc) h.laidOut
  refine ⟨_, paintPage_textBoxes size (rootLayout_up h.laidOut), k.2, k.1, ?_⟩
  have hfl := (h.flow hi.1).1 hi.2
  have hcov := rootLayout_covers h.sound h.laidOut
  have hfit : ∀ w ∈ lineWidthsAll fs, ∀ i ∈ b.ifcs, RunsFit E w (inlineInked i) := by
    refine fun w _ => runsFit_of_ink (fun p hp => ?_) w
    rw [Bfc.flow_ink b hfl, h.ink hu] at hp
    exact hh p hp
  have e := (covers_ink hcov hfit).2 hfl
  rw [Bfc.flow_ink b hfl, h.ink hu, ← textBoxesAll_inked fs 0 0] at e
  rw [← e]
  simp only [inkOfTexts, List.flatMap_map]

/-- of two texts in reading order, the later begins after the end of the earlier or below it -/
theorem ReadingOrder.apart {ts : List TextBox} (h : ReadingOrder E ts) :
    ts.Pairwise fun s t => s.right E ≤ t.x ∨ s.bottom ≤ t.top := by
  obtain ⟨rows, rfl, h1, h2⟩ := h
  rw [List.pairwise_flatten]
  refine ⟨fun r hr => (h1 r hr).imp fun h => .inl h, h2.imp fun h s hs t ht => .inr (h s hs t ht)⟩

/-- **C75**: no two texts overlap: of two texts, one begins after the end of the other, or its
part of the line is below that of the other. -/
theorem C75_apart (h : Page C E kids st cs b size fs) (hu : uniformAll st false cs = true)
    (hc : ∀ e ∈ boxedPage st cs, Calm e) (hw : ∀ f t, 0 ≤ E.width f t) :
    ∃ ts : List TextBox, (paintPage size fs).calls.filter DrawCall.isText = ts.map TextBox.call ∧
      (∀ t ∈ ts, (∃ e ∈ boxedPage st cs, e.1 = t.style) ∧ t.font = E.font t.style) ∧
      ts.Pairwise fun s t => s.right E ≤ t.x ∨ s.bottom ≤ t.top :=
  have ⟨ts, h1, h2, h3⟩ := C75_reading_order h hu hc hw
  ⟨ts, h1, h2, h3.apart⟩

/-- **C75**: if lines are at least as high as the fonts, the letters themselves do not overlap: of
two texts, one ends before the other begins, or its descent is above the ascent of the other. -/
theorem C75_letters (h : Page C E kids st cs b size fs) (hu : uniformAll st false cs = true)
    (hc : ∀ e ∈ boxedPage st cs, Calm e) (hw : ∀ f t, 0 ≤ E.width f t)
    (hl : ∀ e ∈ boxedPage st cs, (E.font e.1).ascent + (E.font e.1).descent ≤ lineHeightOf e.1) :
    ∃ ts : List TextBox, (paintPage size fs).calls.filter DrawCall.isText = ts.map TextBox.call ∧
      (∀ t ∈ ts, t.font = E.font t.style) ∧
      ts.Pairwise fun s t => s.right E ≤ t.x ∨ s.base + s.font.descent ≤ t.base - t.font.ascent := by
  obtain ⟨ts, h1, h2, h3⟩ := C75_apart h hu hc hw
  refine ⟨ts, h1, fun t ht => (h2 t ht).2, ?_⟩
  have hlead : ∀ t ∈ ts, 0 ≤ t.halfLeading := by
    intro t ht
    obtain ⟨⟨e, he, hs⟩, hf⟩ := h2 t ht
    have := hl e he
    rw [hs, ← hf] at this
    unfold TextBox.halfLeading
    linarith
  refine h3.imp_of_mem fun {s t} hs ht k => k.imp_right fun k => ?_
  have := hlead s hs
  have := hlead t ht
  unfold TextBox.top TextBox.bottom at k
  linarith

end

/-! ## From the text of the page -/

/-- a page that was rendered: nothing is drawn, or what is drawn is the layout of its boxes -/
theorem rendered_page (X : Externals) {html sheet : Text} {ops : List Doc.SinkOp}
    (hops : X.html html = .ok ops) (hleg : LegalRun Doc.new ops) {d : Doc}
    (hrun : Doc.new.runSink ops = .ok d) {kids} (hw : d.WF kids) (hl : Legible X d kids sheet)
    (n : Nat) (size : PVec2 Length) (hp : (X.renderHtml n html sheet size).panic = none) :
    ∃ author root st cs fs, X.parseStylesheets d (some sheet) = .ok author ∧ OneRoot d kids root ∧
      styleForElement X.colors X.attr X.userAgent author d root none = .ok st ∧
      Shows (.of X.colors X.attr X.userAgent author d X.env) kids st (kids root) cs ∧
      (X.renderHtml n html sheet size).calls = (paintPage size fs).calls ∧
      (st.val .display = .none ∧ fs = [] ∨
        ∃ b, Page (.of X.colors X.attr X.userAgent author d X.env) X.env kids st cs b size fs) := by
  have hd : Doc.Reachable d := by
    obtain ⟨d', h1, h2⟩ := hleg.reachable .new
    rw [hrun] at h1
    cases h1
    exact h2
  obtain ⟨a, ha, hans⟩ := hl.author hd hw
  have hs : ∀ i p, i < d.len → ∃ s, styleForElement X.colors X.attr X.userAgent a d i p = .ok s :=
    fun i p hi => hl.style hans i p hi
  have hparse : X.parseHtml html = .ok d := by
    simp only [Externals.parseHtml, hops, bind, Except.bind, hrun]
  unfold Externals.renderHtml at hp ⊢
  cases hlay : X.layoutHtml n html sheet size with
  | error p => rw [hlay] at hp; cases hp
  | ok fs =>
    simp only [Externals.layoutHtml, hparse, Externals.layoutDoc, ha, bind, Except.bind] at hlay
    cases hb : boxTree (.of X.colors X.attr X.userAgent a d X.env) n with
    | error p => rw [hb] at hlay; cases hlay
    | ok b =>
      rw [hb] at hlay
      cases hf : rootLayout X.env b size with
      | error p => simp only [hf] at hlay; cases hlay
      | ok fs' =>
        simp only [hf] at hlay
        split at hlay
        · cases hlay
        cases hlay
        have hb' := hb
        unfold boxTree at hb'
        obtain ⟨root, hr, h⟩ := bind_eq_ok.1 hb'
        obtain ⟨st, hst, h⟩ := bind_eq_ok.1 h
        have hroot := (rootElement_iff hd hw root).1 hr
        have hlt : root < d.len := by
          obtain ⟨a, b, hk, _⟩ := hroot
          exact (hw.bound Doc.documentNodeId root (by rw [hk]; simp)).2
        obtain ⟨l, hl'⟩ := hw.treeOrder (kids root) fun x hx => (hw.bound root x hx).2
        obtain ⟨cs, hcs⟩ := Shows.exists (C := BoxContext.of X.colors X.attr X.userAgent a d X.env)
          hw hs hl' st fun x hx => (hw.bound root x hx).2
        refine ⟨a, root, st, cs, fs, ha, hroot, hst, hcs, rfl, ?_⟩
        by_cases hdisp : st.val .display = .none
        · unfold constructRoot at h
          rw [if_pos hdisp] at h
          cases h
          refine .inl ⟨hdisp, ?_⟩
          have e : rootLayout X.env (.mk (.blockLevelBoxes []) false) size = .ok [] := rfl
          rw [e] at hf
          cases hf
          rfl
        · exact .inr ⟨b, hw, ⟨_, _, _, _, _, _, rfl⟩, ⟨root, hr, hlt, hst, hcs⟩, hdisp, ⟨n, hb⟩, hf⟩

/-- **C75, from the source text**: if a page whose style sheets can be read is laid out, and
its elements do not move text, then no two texts on it overlap and they are in reading order. -/
theorem C75_rendered (X : Externals) {html sheet : Text} {ops : List Doc.SinkOp}
    (hops : X.html html = .ok ops) (hleg : LegalRun Doc.new ops) {d : Doc}
    (hrun : Doc.new.runSink ops = .ok d) {kids} (hw : d.WF kids) (hl : Legible X d kids sheet)
    (hwidth : ∀ f t, 0 ≤ X.env.width f t)
    (n : Nat) (size : PVec2 Length) (hp : (X.renderHtml n html sheet size).panic = none) :
    ∃ author root st cs, X.parseStylesheets d (some sheet) = .ok author ∧ OneRoot d kids root ∧
      styleForElement X.colors X.attr X.userAgent author d root none = .ok st ∧
      Shows (.of X.colors X.attr X.userAgent author d X.env) kids st (kids root) cs ∧
      (uniformAll st false cs = true → (∀ e ∈ boxedPage st cs, Calm e) →
        ∃ ts : List TextBox,
          (X.renderHtml n html sheet size).calls.filter DrawCall.isText = ts.map TextBox.call ∧
          (∀ t ∈ ts, (∃ e ∈ boxedPage st cs, e.1 = t.style) ∧ t.font = X.env.font t.style) ∧
          ReadingOrder X.env ts ∧
          ts.Pairwise fun s t => s.right X.env ≤ t.x ∨ s.bottom ≤ t.top) := by
  obtain ⟨a, root, st, cs, fs, h1, h2, h3, h4, h5, h6⟩ := rendered_page X hops hleg hrun hw hl n size hp
  refine ⟨a, root, st, cs, h1, h2, h3, h4, fun hu hc => ?_⟩
  rw [h5]
  rcases h6 with ⟨-, rfl⟩ | ⟨b, h⟩
  · exact ⟨[], rfl, by simp, ⟨[], rfl, by simp, by simp⟩, by simp⟩
  · obtain ⟨ts, k1, k2, k3⟩ := C75_reading_order h hu hc hwidth
    exact ⟨ts, k1, k2, k3, k3.apart⟩

/-! ## Examples and counterexamples -/

instance (l : LengthOrPercentage) : Decidable l.Nonneg :=
  match l with
  | .length l => inferInstanceAs (Decidable (0 ≤ l))
  | .percentage _ => isFalse id

instance (l : LengthOrPercentageOrAuto) : Decidable l.Nonneg :=
  match l with
  | .length l => inferInstanceAs (Decidable (0 ≤ l))
  | .percentage _ => isFalse id
  | .auto => isTrue trivial

instance (e : Boxed) : Decidable (Calm e) :=
  match e with
  | (_, .block) => by unfold Calm; infer_instance
  | (_, .inline) => by unfold Calm; infer_instance

/-- `nameSheet`, with a margin and a border for `<em>`, a padding for `<p>`, large text in
`<contents>`, and a fixed height for `<pre>` -/
def rowSheet : StyleSet nameEngine where
  rules := nameSheet.rules.append
    [("em", .one (.value .marginLeft (.length (.absolute 5)))),
     ("em", .one (.value .borderRightStyle LineStyle.solid)),
     ("em", .one (.value .borderRightWidth (.length (.absolute 2)))),
     ("p", .one (.value .paddingTop (.length (.absolute 3)))),
     ("contents", ⟨[.value .fontSize (.absolute 60)], [false], ⟨false, false⟩, ⟨true, false⟩⟩),
     ("pre", .one (.value .height (.length (.absolute 5))))]

/-- fonts as high as the lines, 10 px per character -/
def rowEnv : TextEnv :=
  ⟨fun st => ⟨lineHeightOf st, 3 / 4 * lineHeightOf st, 1 / 4 * lineHeightOf st, 4,
    { GCtx.new with fontsize := lineHeightOf st }⟩, fun _ t => 10 * t.length⟩

/-- the boxes of a document are constructed with this style sheet and these fonts -/
def rowContext (d : Doc) : BoxContext :=
  .of (S := nameEngine) ⟨fun _ => none, fun _ => none, fun _ _ => none⟩ (fun _ => []) rowSheet ⟨[]⟩ d rowEnv

/-- the style of the root element -/
def rowStyle (d : Doc) : Style :=
  match (rowContext d).styleOf 2 none with
  | .ok s => s
  | .error _ => Style.initial

/-- the content of the root element -/
def rowContent (d : Doc) : List Styled :=
  (readContent (rowContext d) (linkedKids d) 40 (rowStyle d) (linkedKids d 2)).getD []

/-- a page that is `width` wide: its boxes and its layout -/
def rowRead (d : Doc) (width : ℚ) : Option (Bfc × List Fragment) :=
  match boxTree (rowContext d) 40 with
  | .ok b => match rootLayout rowEnv b ⟨width, 100⟩ with
    | .ok fs => some (b, fs)
    | .error _ => none
  | .error _ => none

/-- a page is a forest, its root element is shown, and its content can be read -/
def rowCheck (d : Doc) : Bool :=
  forestCheck d && decide (2 < d.len) &&
    (readContent (rowContext d) (linkedKids d) 40 (rowStyle d) (linkedKids d 2)).isSome &&
    (match (rowContext d).doc.rootElement d.len, (rowContext d).styleOf 2 none with
    | .ok r, .ok s => decide (r = 2) && decide (s.val .display ≠ .none)
    | _, _ => false)

theorem rowCheck_page {d : Doc} {b : Bfc} {fs : List Fragment} {width : ℚ}
    (h : rowCheck d = true) (hp : rowRead d width = some (b, fs)) :
    Page (rowContext d) rowEnv (linkedKids d) (rowStyle d) (rowContent d) b ⟨width, 100⟩ fs := by
  simp only [rowCheck, Bool.and_eq_true, decide_eq_true_eq] at h
  obtain ⟨⟨⟨h1, h2⟩, h3⟩, h4⟩ := h
  have hst : ∃ s, (rowContext d).doc.rootElement d.len = .ok 2 ∧ (rowContext d).styleOf 2 none = .ok s ∧
      s.val .display ≠ .none := by
    split at h4
    · rename_i r s e1 e2
      simp only [Bool.and_eq_true, decide_eq_true_eq] at h4
      exact ⟨s, by rw [e1, h4.1], e2, h4.2⟩
    · cases h4
  obtain ⟨s, e1, e2, e3⟩ := hst
  have es : rowStyle d = s := by unfold rowStyle; rw [e2]
  refine ⟨forestCheck_wf h1, ⟨nameEngine, _, _, _, _, d, rfl⟩,
    ⟨2, e1, h2, by rw [es]; exact e2, ?_⟩, by rw [es]; exact e3, ⟨40, ?_⟩, ?_⟩
  · obtain ⟨cs, hcs⟩ := Option.isSome_iff_exists.1 h3
    rw [rowContent, hcs]
    exact readContent_shows hcs
  · unfold rowRead at hp
    split at hp
    · split at hp
      · rename_i e _ _ _
        injection hp with hp
        injection hp with hp1 hp2
        subst hp1
        exact e
      · cases hp
    · cases hp
  · unfold rowRead at hp
    split at hp
    · split at hp
      · rename_i e
        injection hp with hp
        injection hp with hp1 hp2
        subst hp1 hp2
        exact e
      · cases hp
    · cases hp

/-- the text of a call, where it is drawn, and its font size -/
def DrawCall.sized : DrawCall → Option (String × ℚ × ℚ × ℚ)
  | .text l x y g _ => some (l, x, y, g.fontsize)
  | _ => none

/-- the texts on a page -/
def rowTexts (d : Doc) (width : ℚ) : Option (List (String × ℚ × ℚ × ℚ)) :=
  (rowRead d width).map fun p => (paintPage ⟨width, 100⟩ p.2).calls.filterMap DrawCall.sized

/-- `<p>one <em>two three</em></p>four` -/
def rowPage : Doc := pageOf [.node "p" [.text "one ", .node "em" [.text "two three"]], .text "four"]

/-- four texts on three lines; the second and the fourth begin further to the right or below -/
example : rowTexts rowPage 85 = some [("one ", 0, 87 / 5, 96 / 5), ("two", 45, 87 / 5, 96 / 5),
    ("three", 0, 183 / 5, 96 / 5), ("four", 0, 279 / 5, 96 / 5)] := by
  decide +kernel

theorem rowEnv_width (f : Font) (t : Text) : 0 ≤ rowEnv.width f t :=
  mul_nonneg (by norm_num) (Nat.cast_nonneg _)

theorem rowEnv_high (s : Style) : (rowEnv.font s).ascent + (rowEnv.font s).descent ≤ lineHeightOf s := by
  simp only [rowEnv]
  linarith

-- the hypotheses of the theorems hold for this page
example : ∃ b fs, rowRead rowPage 85 = some (b, fs) ∧ ∃ ts : List TextBox,
    (paintPage ⟨85, 100⟩ fs).calls.filter DrawCall.isText = ts.map TextBox.call ∧
      (∀ t ∈ ts, (∃ e ∈ boxedPage (rowStyle rowPage) (rowContent rowPage), e.1 = t.style) ∧
        t.font = rowEnv.font t.style) ∧
      ReadingOrder rowEnv ts ∧
      (ts.flatMap fun t => (t.text.filter fun c => !htmlSpace c).map fun c => (t.style, t.font, c)) =
        inkOf rowEnv.font (rowContent rowPage) := by
  have hs : (rowRead rowPage 85).isSome = true := by decide +kernel
  obtain ⟨⟨b, fs⟩, hr⟩ := Option.isSome_iff_exists.1 hs
  exact ⟨b, fs, hr, C75_characters (rowCheck_page (by decide +kernel) hr) (by decide +kernel)
    (by decide +kernel) rowEnv_width (by decide +kernel) (by decide +kernel)⟩

example : ∃ b fs, rowRead rowPage 85 = some (b, fs) ∧ ∃ ts : List TextBox,
    (paintPage ⟨85, 100⟩ fs).calls.filter DrawCall.isText = ts.map TextBox.call ∧
      (∀ t ∈ ts, t.font = rowEnv.font t.style) ∧
      ts.Pairwise fun s t => s.right rowEnv ≤ t.x ∨
        s.base + s.font.descent ≤ t.base - t.font.ascent := by
  have hs : (rowRead rowPage 85).isSome = true := by decide +kernel
  obtain ⟨⟨b, fs⟩, hr⟩ := Option.isSome_iff_exists.1 hs
  exact ⟨b, fs, hr, C75_letters (rowCheck_page (by decide +kernel) hr) (by decide +kernel)
    (by decide +kernel) rowEnv_width fun e _ => rowEnv_high e.1⟩

/-- `<p><em>a</em><contents>b</contents></p><p>ccc</p>` -/
def contentsPage : Doc :=
  pageOf [.node "p" [.node "em" [.text "a"], .node "contents" [.text "b"]], .node "p" [.text "ccc"]]

/-- The letters on a page never overlap, also if text is in elements with `display: contents`.
(Fonts are no higher than lines, elements are not moved.) -/
def C75_contents : Prop :=
  ∀ (C : BoxContext) (E : TextEnv) (kids : NodeId → List NodeId) (st : Style) (cs : List Styled)
    (b : Bfc) (size : PVec2 Length) (fs : List Fragment),
    Page C E kids st cs b size fs → (∀ e ∈ boxedPage st cs, Calm e) → (∀ f t, 0 ≤ E.width f t) →
    (∀ s, (E.font s).ascent + (E.font s).descent ≤ lineHeightOf s) →
    ∃ ts : List TextBox, (paintPage size fs).calls.filter DrawCall.isText = ts.map TextBox.call ∧
      (∀ t ∈ ts, t.font = E.font t.style) ∧
      ts.Pairwise fun s t => s.right E ≤ t.x ∨ s.base + s.font.descent ≤ t.base - t.font.ascent

theorem sized_calls (cs : List DrawCall) : (cs.filter DrawCall.isText).map DrawCall.sized =
    (cs.filterMap DrawCall.sized).map some := by
  induction cs with
  | nil => rfl
  | cons c cs ih => cases c <;> simp [List.filter_cons, List.filterMap_cons, DrawCall.isText, DrawCall.sized, ih]

/-- **C75 needs that text has the font of its element**: the baseline of larger text in an element
with `display: contents` is too low, so that it is drawn over the line below. -/
theorem C75_contents_false : ¬ C75_contents := by
  intro h
  have hs : rowTexts contentsPage 85 =
      some [("a", 5, 57, 96 / 5), ("b", 17, 483 / 5, 72), ("ccc", 0, 462 / 5, 96 / 5)] := by
    decide +kernel
  obtain ⟨⟨b, fs⟩, hr, hs⟩ := Option.map_eq_some_iff.1 hs
  obtain ⟨ts, k1, k2, k3⟩ := h _ _ _ _ _ _ _ _ (rowCheck_page (d := contentsPage) (by decide +kernel) hr)
    (by decide +kernel) rowEnv_width rowEnv_high
  have k4 := congrArg (List.map DrawCall.sized) k1
  simp only at hs
  rw [sized_calls, hs, List.map_map] at k4
  obtain _ | ⟨t1, _ | ⟨t2, _ | ⟨t3, _ | ⟨t4, ts⟩⟩⟩⟩ := ts
  · cases k4
  · simp at k4
  · simp at k4
  · simp only [List.map_cons, List.map_nil, List.cons.injEq, Function.comp_apply, TextBox.call,
      DrawCall.sized, Option.some.injEq, Prod.mk.injEq, and_true] at k4
    obtain ⟨-, ⟨a1, a2, a3, a4⟩, b1, b2, b3, b4⟩ := k4
    have f2 := k2 t2 (by simp)
    have f3 := k2 t3 (by simp)
    rw [f2] at a4
    rw [f3] at b4
    have l2 : t2.text = ['b'] := by
      have := congrArg String.toList a1
      simpa using this.symm
    simp only [List.pairwise_cons, List.mem_cons, List.not_mem_nil, or_false, forall_eq_or_imp,
      forall_eq] at k3
    have := k3.2.1
    simp only [TextBox.right, f2, f3] at this
    simp only [rowEnv, l2, List.length_cons, List.length_nil] at this a4 b4
    rw [← a2, ← a3, ← b2, ← b3, ← a4, ← b4] at this
    norm_num at this
  · simp at k4

/-- `<pre>a</pre>b` -/
def heightPage : Doc := pageOf [.node "pre" [.text "a"], .text "b"]

/-- blocks must not have a fixed height: the text below a block that is too small for its text is
drawn over it -/
example : rowTexts heightPage 85 = some [("a", 0, 72 / 5, 96 / 5), ("b", 0, 97 / 5, 96 / 5)] ∧
    uniformAll (rowStyle heightPage) false (rowContent heightPage) = true ∧
    ¬ ∀ e ∈ boxedPage (rowStyle heightPage) (rowContent heightPage), Calm e := by
  decide +kernel

-- the hypotheses of `C75_rendered` hold for `plainOps`
example : ∃ author root st cs, (opsExternals plainOps).parseStylesheets (docOf plainOps) (some []) = .ok author ∧
      OneRoot (docOf plainOps) (linkedKids (docOf plainOps)) root ∧
      styleForElement (opsExternals plainOps).colors (opsExternals plainOps).attr
        (opsExternals plainOps).userAgent author (docOf plainOps) root none = .ok st ∧
      Shows (.of (opsExternals plainOps).colors (opsExternals plainOps).attr
        (opsExternals plainOps).userAgent author (docOf plainOps) (opsExternals plainOps).env)
        (linkedKids (docOf plainOps)) st (linkedKids (docOf plainOps) root) cs ∧
      (uniformAll st false cs = true → (∀ e ∈ boxedPage st cs, Calm e) →
        ∃ ts : List TextBox,
          ((opsExternals plainOps).renderHtml 40 [] [] ⟨28, 100⟩).calls.filter DrawCall.isText =
            ts.map TextBox.call ∧
          (∀ t ∈ ts, (∃ e ∈ boxedPage st cs, e.1 = t.style) ∧
            t.font = (opsExternals plainOps).env.font t.style) ∧
          ReadingOrder (opsExternals plainOps).env ts ∧
          ts.Pairwise fun s t => s.right (opsExternals plainOps).env ≤ t.x ∨ s.bottom ≤ t.top) := by
  have hrun : (Doc.legalRun Doc.new plainOps).isSome = true := by decide +kernel
  obtain ⟨d, hd⟩ := Option.isSome_iff_exists.1 hrun
  have hdoc : docOf plainOps = d := by simp [docOf, hd]
  obtain ⟨k1, k2⟩ := legalRun_sound hd
  refine C75_rendered (opsExternals plainOps) (html := []) (sheet := []) rfl k1 (by rw [hdoc]; exact k2)
    (forestCheck_wf (by decide +kernel)) ?_ (fun _ _ => mul_nonneg (by norm_num) (Nat.cast_nonneg _))
    40 ⟨28, 100⟩ (by decide +kernel)
  refine ⟨fun r _ n _ _ => ⟨_, rfl⟩, fun t _ sels items hr => ?_, fun n e a _ _ _ name ts hm => ?_⟩
  · exact absurd hr (List.not_mem_nil (a := RawRule.rule sels items))
  · exact absurd hm (List.not_mem_nil)

end Sinab
