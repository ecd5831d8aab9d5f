import Verif.Lemmas.Colours
import Verif.Props.Zoom
import Verif.Props.Supported

/-! C90: colours have no influence on the layout. -/

namespace Sinab

/-- what is drawn on a page, and where, without colours and backgrounds -/
def drawnPlaces (size : PVec2 Length) (fs : List Fragment) : List DrawnPlace :=
  (paintPage size fs).calls.filterMap DrawCall.place

/-! ## The fonts -/

/-- C90: the fonts of R do not depend on colours. -/
theorem C90_fonts (R : Metrics) (dflt : Font) : (TextEnv.ofMetrics R dflt).IgnoresColours := by
  intro s t h
  simp only [TextEnv.ofMetrics, Font.newFromComputedValues, h.val .fontFamily rfl, h.val .fontStyle rfl,
    h.val .fontWeight rfl, h.val .fontSize rfl]

/-! ## Boxes and fragments -/

theorem drawnPlaces_erase (size : PVec2 Length) {fs fs' : List Fragment}
    (h : uncoloured.frags fs = uncoloured.frags fs') : drawnPlaces size fs = drawnPlaces size fs' := by
  have h1 := congrArg Prod.fst (paintAll_placed fs ⟨⟨0, 0⟩, size⟩)
  have h2 := congrArg Prod.fst (paintAll_placed fs' ⟨⟨0, 0⟩, size⟩)
  rw [h] at h1
  exact h1.symm.trans h2

theorem rootLayout_erase {E : TextEnv} (hE : E.IgnoresColours) {b b' : Bfc} (hb : uncoloured.bfc b = uncoloured.bfc b')
    {size : PVec2 Length} {fs fs' : List Fragment} (h : rootLayout E b size = .ok fs)
    (h' : rootLayout E b' size = .ok fs') : uncoloured.frags fs = uncoloured.frags fs' := by
  have h1 := Zoom.rootLayout_z uncoloured (uncoloured_fonts hE) b size
  have h2 := Zoom.rootLayout_z uncoloured (uncoloured_fonts hE) b' size
  rw [hb, h2, h, h'] at h1
  injection h1 with h1
  exact h1.symm

theorem Page.erase_boxes {E : TextEnv} (hE : E.IgnoresColours) {C C' : BoxContext} {kids kids' : NodeId → List NodeId}
    {st st' : Style} {cs cs' : List Styled} {b b' : Bfc} {size size' : PVec2 Length} {fs fs' : List Fragment}
    (h : Page C E kids st cs b size fs) (h' : Page C' E kids' st' cs' b' size' fs') (hst : st.SameButColours st')
    (hcs : Recoloured cs cs') : uncoloured.bfc b = uncoloured.bfc b' := by
  have hC : uncoloured.SameFonts C C := by
    obtain ⟨_, _, _, _, _, _, rfl⟩ := h.context
    exact (uncoloured_fonts hE).font
  have hC' : uncoloured.SameFonts C' C := by
    obtain ⟨_, _, _, _, _, _, rfl⟩ := h.context
    obtain ⟨_, _, _, _, _, _, rfl⟩ := h'.context
    exact (uncoloured_fonts hE).font
  obtain ⟨c1, c2⟩ := Zoom.containerOf_z hC st cs
  obtain ⟨c3, c4⟩ := Zoom.containerOf_z hC' st' cs'
  rw [hst.erase, hcs.erase] at c1 c2
  have e1 : uncoloured.container (containerOf C st cs).1 = uncoloured.container (containerOf C' st' cs').1 :=
    c1.symm.trans c3
  have e2 : (containerOf C st cs).2.1 = (containerOf C' st' cs').2.1 := c2.symm.trans c4
  rw [h.boxes_eq, h'.boxes_eq, hst.val .position rfl, hst.val .float rfl]
  split
  · simp only [Zoom.bfc, Zoom.container, Zoom.blocks, Zoom.block, e1, e2, hst.erase]
  · split <;> simp only [Zoom.bfc, Zoom.container, Zoom.blocks, Zoom.block, e1, e2, hst.erase]

/-- C90 for documents: two documents that differ only in colours are drawn with the same texts in the same fonts and the
same border lines at the same places; only the colours and the backgrounds differ. -/
theorem C90_document {E : TextEnv} (hE : E.IgnoresColours) {C C' : BoxContext} {kids kids' : NodeId → List NodeId}
    {st st' : Style} {cs cs' : List Styled} {b b' : Bfc} {size : PVec2 Length} {fs fs' : List Fragment}
    (h : Page C E kids st cs b size fs) (h' : Page C' E kids' st' cs' b' size fs') (hst : st.SameButColours st')
    (hcs : Recoloured cs cs') : drawnPlaces size fs = drawnPlaces size fs' :=
  drawnPlaces_erase size (rootLayout_erase hE (h.erase_boxes hE h' hst hcs) h.laidOut h'.laidOut)

/-! ## Style sheets -/

open Doc

variable {S : SelectorEngine}

theorem styled_found {C : CssColors} {tokenize : AttrTokenizer} {ua author : StyleSet S} {d : Doc} {n : NodeId}
    {parent : Option Style} {s : Style} {e : ElementData} (he : (d.node n).data = .element e)
    (h : styleForElement C tokenize ua author d n parent = .ok s) : d.get n = .ok (d.node n) := by
  unfold styleForElement at h
  obtain ⟨nd, hn, _⟩ := bind_eq_ok.1 h
  by_cases hlt : n < d.len
  · exact Doc.get_ok d n hlt
  · simp [Doc.get, hlt] at hn

/-- C90 for the cascade: style sheets that differ only in declarations of colours give styles that differ only in
colours, if the style of the parent element does. -/
theorem C90_style (C : CssColors) (tokenize : AttrTokenizer) (ua : StyleSet S) (l l' : List (S.Sel × Block)) (d : Doc)
    (hua : ∀ r ∈ ua.rules, r.2.Parsed C) (hl : ∀ r ∈ l, r.2.Parsed C) (hl' : ∀ r ∈ l', r.2.Parsed C)
    (h : SameButColours d l l') {n : NodeId} {e : ElementData} (he : (d.node n).data = .element e)
    {i i' : Option Style} (hi : (i.getD Style.initial).SameButColours (i'.getD Style.initial)) {s s' : Style}
    (hs : styleForElement C tokenize ua (StyleSet.finish ⟨l⟩) d n i = .ok s)
    (hs' : styleForElement C tokenize ua (StyleSet.finish ⟨l'⟩) d n i' = .ok s') : s.SameButColours s' := by
  have hn := styled_found he hs
  have hf : FoundElement d n := ⟨_, e, hn, by rw [he]; rfl⟩
  obtain ⟨us, as, attr, hu, ha, hat, rfl⟩ := styleForElement_ok hn he hs
  obtain ⟨us', as', attr', hu', ha', hat', rfl⟩ := styleForElement_ok hn he hs'
  cases StyleAttr.unique hat hat'
  cases hu.symm.trans hu'
  have inv : ∀ {l as}, (∀ r ∈ l, r.2.Parsed C) → pushMatching d n (StyleSet.finish (S := S) ⟨l⟩).rules = .ok as →
      Matching.Inv ⟨us, as ++ attr.toList⟩ := by
    intro l as hl ha b hb
    rcases hb with hb | hb
    · obtain ⟨r, hr, rfl⟩ := pushMatching_mem hu b hb
      exact (hua r hr).inv
    · rcases List.mem_append.1 hb with hb | hb
      · obtain ⟨r, hr, rfl⟩ := pushMatching_mem ha b hb
        exact (hl r ((C24_perm l).subset hr)).inv
      · simp only [Option.mem_toList] at hb
        subst hb
        obtain ⟨-, t, -, hb⟩ := hat
        exact Block.Parsed.inv ⟨_, hb⟩
  refine Style.new_same hi (inv hl ha) (inv hl' ha') ?_
  have key : ∀ imp, plainDecls (as.flatMap (·.declsWith imp)) = plainDecls (as'.flatMap (·.declsWith imp)) := by
    intro imp
    rw [pushMatching_ok ha, pushMatching_ok ha', plain_matching, plain_matching, taggedPlain_finish (h n hf)]
  simp only [Matching.decls, List.flatMap_append, plainDecls_append, key]

theorem isOther_text {x : NodeData} {t : Text} (h : x.isOther) (e : x = .text t) : False := by
  rw [e] at h
  cases h.1

theorem isOther_element {x : NodeData} {t : ElementData} (h : x.isOther) (e : x = .element t) : False := by
  rw [e] at h
  cases h.2

/-- C90 for the content: the styled content of a document with style sheets that differ only in colours differs only in
colours. -/
theorem C90_content (C : CssColors) (tokenize : AttrTokenizer) (ua : StyleSet S) (l l' : List (S.Sel × Block)) (d : Doc)
    (hua : ∀ r ∈ ua.rules, r.2.Parsed C) (hl : ∀ r ∈ l, r.2.Parsed C) (hl' : ∀ r ∈ l', r.2.Parsed C)
    (h : SameButColours d l l') (E : TextEnv) {kids : NodeId → List NodeId} {st st' : Style} {ns : List NodeId}
    {cs cs' : List Styled} (hst : st.SameButColours st')
    (hs : Shows (.of C tokenize ua (StyleSet.finish ⟨l⟩) d E) kids st ns cs)
    (hs' : Shows (.of C tokenize ua (StyleSet.finish ⟨l'⟩) d E) kids st' ns cs') : Recoloured cs cs' := by
  have key : ∀ {n e s s' st st'}, Style.SameButColours st st' → (d.node n).data = .element e →
      (BoxContext.of C tokenize ua (StyleSet.finish ⟨l⟩) d E).styleOf n (some st) = .ok s →
      (BoxContext.of C tokenize ua (StyleSet.finish ⟨l'⟩) d E).styleOf n (some st') = .ok s' → s.SameButColours s' :=
    fun hst he h1 h2 => C90_style C tokenize ua l l' d hua hl hl' h he (i := some _) (i' := some _) hst h1 h2
  induction hs generalizing st' cs' with
  | nil => cases hs'; exact .nil
  | other ho _ ih =>
    cases hs' with
    | other _ h2 => exact .other (ih hst h2)
    | text ht' _ => exact (isOther_text ho ht').elim
    | br he' | hidden he' | contents he' | elem he' => exact (isOther_element ho he').elim
  | text ht _ ih =>
    cases hs' with
    | other ho _ => exact (isOther_text ho ht).elim
    | text ht' h2 =>
      cases ht.symm.trans ht'
      exact .text hst (ih hst h2)
    | br he' | hidden he' | contents he' | elem he' => cases ht.symm.trans he'
  | br he hb hs1 _ ih =>
    cases hs' with
    | other ho _ => exact (isOther_element ho he).elim
    | text ht' _ => cases he.symm.trans ht'
    | br he' hb' hs2 h2 => exact .text (key hst he hs1 hs2) (ih hst h2)
    | hidden he' hb' | contents he' hb' | elem he' hb' => cases he.symm.trans he'; exact absurd hb hb'
  | hidden he hb hs1 hd _ ih =>
    cases hs' with
    | other ho _ => exact (isOther_element ho he).elim
    | text ht' _ => cases he.symm.trans ht'
    | br he' hb' => cases he.symm.trans he'; exact absurd hb' hb
    | hidden _ _ _ _ h2 => exact .hidden (ih hst h2)
    | contents _ _ hs2 hd' | elem _ _ hs2 hd' =>
      rw [(key hst he hs1 hs2).val .display rfl, hd'] at hd
      cases hd
  | contents he hb hs1 hd _ _ ih1 ih2 =>
    cases hs' with
    | other ho _ => exact (isOther_element ho he).elim
    | text ht' _ => cases he.symm.trans ht'
    | br he' hb' => cases he.symm.trans he'; exact absurd hb' hb
    | contents _ _ hs2 _ h1 h2 => exact .contents (ih1 (key hst he hs1 hs2) h1) (ih2 hst h2)
    | hidden _ _ hs2 hd' | elem _ _ hs2 hd' =>
      rw [(key hst he hs1 hs2).val .display rfl, hd'] at hd
      cases hd
  | elem he hb hs1 hd _ _ ih1 ih2 =>
    cases hs' with
    | other ho _ => exact (isOther_element ho he).elim
    | text ht' _ => cases he.symm.trans ht'
    | br he' hb' => cases he.symm.trans he'; exact absurd hb' hb
    | elem _ _ hs2 hd' h1 h2 =>
      have hss := key hst he hs1 hs2
      rw [hss.val .display rfl, hd'] at hd
      cases hd
      exact .elem hss (ih1 hss h1) (ih2 hst h2)
    | hidden _ _ hs2 hd' | contents _ _ hs2 hd' =>
      rw [(key hst he hs1 hs2).val .display rfl, hd'] at hd
      cases hd

/-! ## Rendering -/

theorem Listed.parsed {C : CssColors} {rs : List (RawRule S)} {l : List (S.Sel × Block)} (h : Listed C rs l) :
    ∀ r ∈ l, r.2.Parsed C := by
  induction h with
  | nil => intro r hr; cases hr
  | error _ ih => exact ih
  | rule hb _ ih =>
    intro r hr
    rcases List.mem_append.1 hr with hr | hr
    · obtain ⟨_, _, rfl⟩ := List.mem_map.1 hr
      exact ⟨_, hb⟩
    · exact ih r hr

mutual

theorem hasNul_erase : ∀ f : Fragment, (uncoloured.frag f).hasNul = f.hasNul
  | .text _ _ t => by simp only [Zoom.frag, Fragment.hasNul, uncoloured_seg]
  | .box _ _ _ cs => by simp only [Zoom.frag, Fragment.hasNul, hasNulAll_erase cs]
  | .anonymous _ cs _ => by simp only [Zoom.frag, Fragment.hasNul, hasNulAll_erase cs]

theorem hasNulAll_erase : ∀ fs : List Fragment, hasNulAll (uncoloured.frags fs) = hasNulAll fs
  | [] => rfl
  | f :: fs => by simp only [Zoom.frags, hasNulAll, hasNul_erase f, hasNulAll_erase fs]

end

theorem Recoloured.endsHidden {cs cs' : List Styled} (h : Recoloured cs cs') : endsHidden cs = endsHidden cs' := by
  have step : ∀ {c c' : Styled} {cs cs'}, Recoloured cs cs' → Sinab.endsHidden cs = Sinab.endsHidden cs' →
      Sinab.endsHidden [c] = Sinab.endsHidden [c'] → Sinab.endsHidden (c :: cs) = Sinab.endsHidden (c' :: cs') := by
    intro c c' cs cs' h ih hc
    cases h <;> first
      | exact hc
      | simpa only [Sinab.endsHidden, List.getLast?_cons_cons] using ih
  cases h with
  | nil => rfl
  | other h => exact step h h.endsHidden rfl
  | text _ h => exact step h h.endsHidden rfl
  | hidden h => exact step h h.endsHidden rfl
  | contents _ h => exact step h h.endsHidden rfl
  | elem _ _ h => exact step h h.endsHidden rfl

theorem Recoloured.good {cs cs' : List Styled} (h : Recoloured cs cs') : ∀ inl, goodAll inl cs = goodAll inl cs' := by
  induction h with
  | nil => exact fun _ => rfl
  | other _ ih | hidden _ ih => intro inl; simp only [goodAll, Styled.good, ih inl]
  | text hs _ ih => intro inl; simp only [goodAll, Styled.good, ih inl, hs.val .whiteSpace rfl]
  | contents h1 _ ih1 ih2 => intro inl; simp only [goodAll, Styled.good, h1.endsHidden, ih1 inl, ih2 inl]
  | @elem i s s' o ins ks ks' _ _ hs h1 _ ih1 ih2 =>
    intro inl
    have ho : s.outOfFlow = s'.outOfFlow := by
      simp only [Style.outOfFlow, hs.val .position rfl, hs.val .float rfl]
    cases o <;> cases ins <;> simp only [goodAll, Styled.good, h1.endsHidden, ih1, ih2 inl, ho]

theorem addStylesheets_rest {C : CssColors} : ∀ {sheets : List (List (RawRule S))} {s t : StyleSet S},
    s.addStylesheets C sheets = .ok t → ∃ rest, (∀ r ∈ rest, r.2.Parsed C) ∧ t.rules = s.rules ++ rest ∧
      ∀ s' : StyleSet S, s'.addStylesheets C sheets = .ok ⟨s'.rules ++ rest⟩ := by
  intro sheets
  induction sheets with
  | nil =>
    intro s t h
    cases h
    exact ⟨[], by simp, by simp, fun s' => by simp [StyleSet.addStylesheets]⟩
  | cons sheet sheets ih =>
    intro s t h
    simp only [StyleSet.addStylesheets, bind, Except.bind] at h ⊢
    cases hs : s.addStylesheet C sheet with
    | error e => rw [hs] at h; cases h
    | ok u =>
      obtain ⟨l, hl⟩ := addStylesheet_ok_listed hs
      rw [hs] at h
      rw [hl.add] at hs
      cases hs
      obtain ⟨rest, h1, h2, h3⟩ := ih h
      refine ⟨l ++ rest, ?_, by rw [h2]; simp, fun s' => ?_⟩
      · intro r hr
        rcases List.mem_append.1 hr with hr | hr
        · exact hl.parsed r hr
        · exact h1 r hr
      · rw [hl.add]
        simp only [h3, List.append_assoc]

theorem SameButColours.symm {d : Doc} {l l' : List (S.Sel × Block)} (h : SameButColours d l l') :
    SameButColours d l' l := fun n hn k => (h n hn k).symm

theorem Uncoloured_append (d : Doc) (n : NodeId) (k : Nat) (a b : List (S.Sel × Block)) :
    Uncoloured d n k (a ++ b) = Uncoloured d n k a ++ Uncoloured d n k b := by
  simp only [Uncoloured, List.filter_append, List.flatMap_append]

theorem SameButColours.append {d : Doc} {a a' b b' : List (S.Sel × Block)} (h : SameButColours d a a')
    (h' : SameButColours d b b') : SameButColours d (a ++ b) (a' ++ b') := by
  intro n hn k
  rw [Uncoloured_append, Uncoloured_append, h n hn k, h' n hn k]

theorem SameButColours.refl (d : Doc) (a : List (S.Sel × Block)) : SameButColours d a a := fun _ _ _ => rfl

theorem boxes_erase {C : CssColors} {tokenize : AttrTokenizer} {ua : StyleSet S} {l l' : List (S.Sel × Block)} {d : Doc}
    (hua : ∀ r ∈ ua.rules, r.2.Parsed C) (hl : ∀ r ∈ l, r.2.Parsed C) (hl' : ∀ r ∈ l', r.2.Parsed C)
    (h : SameButColours d l l') {E : TextEnv} (hE : E.IgnoresColours) {kids : NodeId → List NodeId} (hd : Reachable d)
    (hw : d.WF kids)
    (hs : ∀ i p, i < d.len → ∃ s, styleForElement C tokenize ua (StyleSet.finish ⟨l⟩) d i p = .ok s)
    (hs' : ∀ i p, i < d.len → ∃ s, styleForElement C tokenize ua (StyleSet.finish ⟨l'⟩) d i p = .ok s)
    {n : Nat} {b : Bfc} (hb : boxTree (.of C tokenize ua (StyleSet.finish ⟨l⟩) d E) n = .ok b) :
    ∃ n' b', boxTree (.of C tokenize ua (StyleSet.finish ⟨l'⟩) d E) n' = .ok b' ∧
      uncoloured.bfc b = uncoloured.bfc b' := by
  have hb1 := hb
  unfold boxTree at hb1
  obtain ⟨root, hr, hb1⟩ := bind_eq_ok.1 hb1
  obtain ⟨st, hst, hb1⟩ := bind_eq_ok.1 hb1
  have hroot := (rootElement_iff hd hw root).1 hr
  have hlt : root < d.len := by
    obtain ⟨a, b, hk, _⟩ := hroot
    exact (hw.bound documentNodeId root (by rw [hk]; simp)).2
  obtain ⟨st', hst'⟩ := hs' root none hlt
  have hel : ∃ e, (d.node root).data = .element e := by
    obtain ⟨_, _, _, he, _⟩ := hroot
    exact he
  obtain ⟨e, he⟩ := hel
  have hss : st.SameButColours st' :=
    C90_style C tokenize ua l l' d hua hl hl' h he (i := none) (i' := none) (.refl _) hst hst'
  by_cases hdisp : st.val .display = .none
  · have hdisp' : st'.val .display = .none := (hss.val .display rfl).symm.trans hdisp
    unfold constructRoot at hb1
    rw [if_pos hdisp] at hb1
    refine ⟨0, b, ?_, rfl⟩
    unfold boxTree constructRoot
    have hst'' : (BoxContext.of C tokenize ua (StyleSet.finish ⟨l'⟩) d E).styleOf root none = .ok st' := hst'
    have hr' : (BoxContext.of C tokenize ua (StyleSet.finish ⟨l'⟩) d E).doc.rootElement
      (BoxContext.of C tokenize ua (StyleSet.finish ⟨l'⟩) d E).doc.len = .ok root := hr
    rw [hr']
    simp only [hst'', bind, Except.bind, if_pos hdisp']
    exact hb1
  · have hdisp' : st'.val .display ≠ .none := fun e => hdisp ((hss.val .display rfl).trans e)
    obtain ⟨o, ho⟩ := hw.treeOrder (kids root) fun x hx => (hw.bound root x hx).2
    obtain ⟨cs, hcs⟩ := Shows.exists (C := .of C tokenize ua (StyleSet.finish ⟨l⟩) d E)
      hw hs ho st fun x hx => (hw.bound root x hx).2
    obtain ⟨cs', hcs'⟩ := Shows.exists (C := .of C tokenize ua (StyleSet.finish ⟨l'⟩) d E)
      hw hs' ho st' fun x hx => (hw.bound root x hx).2
    have hrec := C90_content C tokenize ua l l' d hua hl hl' h E hss hcs hcs'
    obtain ⟨fs, hfs⟩ := C42_layout_completes C tokenize ua _ d E E n b hb ⟨0, 0⟩
    have hP : Page (.of C tokenize ua (StyleSet.finish ⟨l⟩) d E) E kids st cs b ⟨0, 0⟩ fs :=
      ⟨hw, ⟨_, _, _, _, _, _, rfl⟩, ⟨root, hr, hlt, hst, hcs⟩, hdisp, ⟨n, hb⟩, hfs⟩
    have hg : goodContent cs' = true := by
      have := hP.tree.1
      simpa only [goodContent, hrec.endsHidden, hrec.good false] using this
    obtain ⟨n', b', hb'⟩ := (boxTree_iff (C := .of C tokenize ua (StyleSet.finish ⟨l'⟩) d E) hd hw hs').2
      ⟨root, st', hroot, hst', .inr ⟨cs', hcs', hg⟩⟩
    obtain ⟨fs', hfs'⟩ := C42_layout_completes C tokenize ua _ d E E n' b' hb' ⟨0, 0⟩
    have hP' : Page (.of C tokenize ua (StyleSet.finish ⟨l'⟩) d E) E kids st' cs' b' ⟨0, 0⟩ fs' :=
      ⟨hw, ⟨_, _, _, _, _, _, rfl⟩, ⟨root, hr, hlt, hst', hcs'⟩, hdisp', ⟨n', hb'⟩, hfs'⟩
    exact ⟨n', b', hb', hP.erase_boxes hE hP' hss hrec⟩

/-- **C90** If two style sheets that can be read say the same to the elements of a document except about colours, then the
document is rendered with one of them exactly if it is with the other, with the same texts in the same fonts and the same
border lines at the same places. -/
theorem C90_render (X : Externals) (hE : X.env.IgnoresColours) {html css css' : Text} {ops : List SinkOp}
    (hops : X.html html = .ok ops) (hleg : LegalRun Doc.new ops) {d : Doc} (hrun : Doc.new.runSink ops = .ok d)
    {kids} (hw : d.WF kids) (hua : ∀ r ∈ X.userAgent.rules, r.2.Parsed X.colors) (hl : Legible X d kids css)
    (hl' : Legible X d kids css') {l l' : List (X.engine.Sel × Block)} (hr : Listed X.colors (X.css css) l)
    (hr' : Listed X.colors (X.css css') l') (h : SameButColours d l l') (size : PVec2 Length) :
    (∀ n fs, X.layoutHtml n html css size = .ok fs → ∃ n' fs', X.layoutHtml n' html css' size = .ok fs' ∧
      drawnPlaces size fs = drawnPlaces size fs') ∧
    (∀ n fs, X.layoutHtml n html css' size = .ok fs → ∃ n' fs', X.layoutHtml n' html css size = .ok fs' ∧
      drawnPlaces size fs = drawnPlaces size fs') := by
  have hd : Reachable d := by
    obtain ⟨d', h1, h2⟩ := hleg.reachable Reachable.new
    rw [hrun] at h1
    cases h1
    exact h2
  have hparse : X.parseHtml html = .ok d := by
    simp only [Externals.parseHtml, hops, bind, Except.bind, hrun]
  have key : ∀ {css css' : Text}, Legible X d kids css → Legible X d kids css' →
      ∀ {l l' : List (X.engine.Sel × Block)}, Listed X.colors (X.css css) l → Listed X.colors (X.css css') l' →
      SameButColours d l l' → ∀ n fs, X.layoutHtml n html css size = .ok fs →
      ∃ n' fs', X.layoutHtml n' html css' size = .ok fs' ∧ drawnPlaces size fs = drawnPlaces size fs' := by
    intro css css' hl hl' l l' hr hr' h n fs hf
    obtain ⟨a, ha, hans⟩ := hl.author hd hw
    obtain ⟨a', ha', hans'⟩ := hl'.author hd hw
    have hs := fun i p hi => hl.style hans i p hi
    have hs' := fun i p hi => hl'.style hans' i p hi
    have hrest : ∃ rest, (∀ r ∈ rest, r.2.Parsed X.colors) ∧ a = StyleSet.finish ⟨l ++ rest⟩ ∧
        a' = StyleSet.finish ⟨l' ++ rest⟩ := by
      simp only [Externals.parseStylesheets, Doc.stylesheetTexts] at ha ha'
      cases ht : d.styleTexts d.len d.styleElements with
      | error e => rw [ht] at ha; cases ha
      | ok ts =>
        rw [ht] at ha ha'
        simp only [bind, Except.bind, pure, Except.pure, Option.toList_some, List.singleton_append, List.map_cons,
          StyleSet.addStylesheets, hr.add, hr'.add, List.nil_append] at ha ha'
        cases hq : StyleSet.addStylesheets X.colors ⟨l⟩ (ts.map X.css) with
        | error e => rw [hq] at ha; cases ha
        | ok t =>
          obtain ⟨rest, h1, h2, h3⟩ := addStylesheets_rest hq
          rw [h3] at ha ha'
          cases ha
          cases ha'
          exact ⟨rest, h1, rfl, rfl⟩
    obtain ⟨rest, hp, rfl, rfl⟩ := hrest
    have hfl : ∀ {l : List (X.engine.Sel × Block)} {css : Text}, Listed X.colors (X.css css) l →
        ∀ r ∈ l ++ rest, r.2.Parsed X.colors := by
      intro l css hr r hm
      rcases List.mem_append.1 hm with hm | hm
      · exact hr.parsed r hm
      · exact hp r hm
    simp only [Externals.layoutHtml, hparse, Externals.layoutDoc, ha, bind, Except.bind] at hf
    cases hb : boxTree (.of X.colors X.attr X.userAgent (StyleSet.finish ⟨l ++ rest⟩) d X.env) n with
    | error p => rw [hb] at hf; cases hf
    | ok b =>
      simp only [hb] at hf
      obtain ⟨n', b', hb', hbb⟩ := boxes_erase hua (hfl hr) (hfl hr') (h.append (.refl d rest)) hE hd hw hs hs' hb
      obtain ⟨fs', hf'⟩ := C42_layout_completes X.colors X.attr X.userAgent _ d X.env X.env n' b' hb' size
      cases hg : rootLayout X.env b size with
      | error p => rw [hg] at hf; cases hf
      | ok gs =>
        rw [hg] at hf
        have he := rootLayout_erase hE hbb hg hf'
        cases hnul : hasNulAll gs with
        | true => simp only [hnul, if_true] at hf; cases hf
        | false =>
          simp only [hnul, Bool.false_eq_true, if_false, Except.ok.injEq] at hf
          subst hf
          have hnul' : hasNulAll fs' = false := by
            rw [← hasNulAll_erase, ← he, hasNulAll_erase, hnul]
          refine ⟨n', fs', ?_, drawnPlaces_erase size he⟩
          simp only [Externals.layoutHtml, hparse, Externals.layoutDoc, ha', bind, Except.bind, hb', hf', hnul']
          rfl
  exact ⟨key hl hl' hr hr' h, key hl' hl hr' hr h.symm⟩

/-! ## Changes of colours -/

/-- C90: rules that are only about colours can be added or taken away. -/
theorem C90_add (d : Doc) (a x b : List (S.Sel × Block)) (h : ∀ r ∈ x, ∀ e ∈ r.2.entries, e.1.longhand.isColour = true) :
    SameButColours d (a ++ x ++ b) (a ++ b) := by
  intro n _ k
  have hx : Uncoloured d n k x = [] := by
    refine List.flatMap_eq_nil_iff.2 fun r hr => List.filter_eq_nil_iff.2 fun e he => ?_
    simp [h r (List.mem_filter.1 hr).1 e he]
  rw [Uncoloured_append, Uncoloured_append, Uncoloured_append, hx, List.append_nil]

/-- C90: the declarations of colours in a rule can be changed. -/
theorem C90_change (d : Doc) (a b : List (S.Sel × Block)) (sel : S.Sel) {x x' : Block}
    (h : x.withoutColours = x'.withoutColours) : SameButColours d (a ++ (sel, x) :: b) (a ++ (sel, x') :: b) := by
  intro n _ k
  rw [Uncoloured_append, Uncoloured_append]
  congr 1
  simp only [Uncoloured, List.filter_cons]
  split
  · simp only [List.flatMap_cons, h]
  · rfl

/-! ## Example -/

example : zoomEnv.IgnoresColours := by
  intro s t h
  simp only [zoomEnv, h.val .fontSize rfl]

/-- rules without colours, and the same with colours -/
def colourRules (more : Bool) : List (nameEngine.Sel × Block) :=
  [("p", if more then ⟨[.value .borderTopStyle .solid, .value .borderTopColor (.rgba ⟨255, 0, 0, 255⟩),
        .value .borderTopWidth (.length (.absolute 2))], [false, true, false], ⟨false, true⟩, ⟨false, true⟩⟩
      else ⟨[.value .borderTopStyle .solid, .value .borderTopWidth (.length (.absolute 2))], [false, false], ⟨false, false⟩,
        ⟨false, true⟩⟩)] ++
  (if more then [("p", .one (.value .backgroundColor (.rgba ⟨0, 0, 255, 255⟩))), ("html", .one (.value .color (.rgba ⟨0, 255, 0, 255⟩)))]
    else []) ++
  [("html", ⟨[.value .fontSize (.absolute 8)], [false], ⟨false, false⟩, ⟨true, false⟩⟩)]

-- they differ only in colours
example (d : Doc) : SameButColours d (colourRules true) (colourRules false) := by
  have h1 := C90_add (S := nameEngine) d (colourRules true |>.take 1) [("p", .one (.value .backgroundColor (.rgba ⟨0, 0, 255, 255⟩))),
    ("html", .one (.value .color (.rgba ⟨0, 255, 0, 255⟩)))] (colourRules true |>.drop 3) (by
      intro r hr e he
      simp only [List.mem_cons, List.not_mem_nil, or_false] at hr
      rcases hr with rfl | rfl <;> (simp [Block.one, Block.entries] at he; subst he; rfl))
  have h2 := C90_change (S := nameEngine) d [] (colourRules true |>.drop 3) "p" (x := (colourRules true)[0].2)
    (x' := (colourRules false)[0].2) rfl
  exact fun n hn k => (h1 n hn k).trans (h2 n hn k)

/-- the document with these rules -/
def colourContext (more : Bool) : BoxContext :=
  .of (S := nameEngine) ⟨fun _ => none, fun _ => none, fun _ _ => none⟩ (fun _ => []) nameSheet
    ⟨colourRules more⟩ zoomDoc zoomEnv

-- the rules are sorted: all have the same specificity
example (more : Bool) : StyleSet.finish ⟨colourRules more⟩ = ⟨colourRules more⟩ := by
  unfold StyleSet.finish
  rw [List.mergeSort_of_pairwise]
  exact List.pairwise_of_forall fun _ _ => rfl

/-- what is drawn -/
def colourDrawn (more : Bool) : Option (List Fragment) :=
  match boxTree (colourContext more) 40 with
  | .ok b => (rootLayout zoomEnv b ⟨32, 100⟩).toOption
  | .error _ => none

-- the same texts and lines are drawn at the same places
example : (colourDrawn true).map (fun fs => (drawnPlaces ⟨32, 100⟩ fs).filterMap fun
      | .text t x y _ => some (t, x, y)
      | .line _ w _ => some ("line", w, 0)
      | .area .. => none) = some [("line", 2, 0), ("ab cd", 0, 44 / 5), ("ef", 0, 92 / 5), ("gh", 8, 92 / 5)] := by
  decide +kernel

example : (colourDrawn true).map (drawnPlaces ⟨32, 100⟩) = (colourDrawn false).map (drawnPlaces ⟨32, 100⟩) := by
  decide +kernel

-- in different colours, and with a background
example : (colourDrawn true).map (fun fs => (paintPage ⟨32, 100⟩ fs).calls.filterMap fun
      | .text _ _ _ _ c | .rect _ _ _ _ c | .line _ c _ _ => some c
      | .bbox .. => none) = some [⟨0, 0, 255, 255⟩, ⟨255, 0, 0, 255⟩, ⟨0, 255, 0, 255⟩, ⟨0, 255, 0, 255⟩, ⟨0, 255, 0, 255⟩] := by
  decide +kernel

example : (colourDrawn false).map (fun fs => (paintPage ⟨32, 100⟩ fs).calls.filterMap fun
      | .text _ _ _ _ c | .rect _ _ _ _ c | .line _ c _ _ => some c
      | .bbox .. => none) = some (List.replicate 4 ⟨0, 0, 0, 255⟩) := by
  decide +kernel

end Sinab
