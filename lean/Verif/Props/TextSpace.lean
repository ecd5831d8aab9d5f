import Verif.Lemmas.TextFragments
import Verif.Props.GContext
import Verif.Props.Color
import Verif.Props.Render

/-! # C71 Text is drawn as it was measured -/

namespace Sinab

variable {X : Externals}

/-! ## Drawing -/

/-- Every text that is drawn is recorded in the bounding box directly before, and text, place and
what is recorded satisfy `Q`. -/
def Framed (Q : String → ℚ → ℚ → GCtx → RGBA → DrawCall → Prop) (calls : List DrawCall) : Prop :=
  ∀ pre label x y gc color post, calls = pre ++ .text label x y gc color :: post →
    ∃ pre' rec, pre = pre' ++ [rec] ∧ Q label x y gc color rec

variable {Q : String → ℚ → ℚ → GCtx → RGBA → DrawCall → Prop}

theorem Framed.append {a b : List DrawCall} (ha : Framed Q a) (hb : Framed Q b) :
    Framed Q (a ++ b) := by
  intro pre label x y gc color post h
  rw [List.append_eq_append_iff] at h
  rcases h with ⟨as, h1, h2⟩ | ⟨bs, h1, h2⟩
  · obtain ⟨pre', r, e, q⟩ := hb _ _ _ _ _ _ _ h2
    subst e
    exact ⟨a ++ pre', r, by rw [h1, List.append_assoc], q⟩
  · cases bs with
    | nil =>
      rw [List.nil_append] at h2
      obtain ⟨pre', r, e, -⟩ := hb [] _ _ _ _ _ _ h2.symm
      simp at e
    | cons c bs =>
      rw [List.cons_append, List.cons.injEq] at h2
      obtain ⟨rfl, -⟩ := h2
      exact ha _ _ _ _ _ _ _ h1

theorem Framed.nil : Framed Q [] := by
  intro pre label x y gc color post h
  simp at h

theorem Framed.flatMap {α : Type} {f : α → List DrawCall} {l : List α}
    (h : ∀ a ∈ l, Framed Q (f a)) : Framed Q (l.flatMap f) := by
  induction l with
  | nil => exact .nil
  | cons a l ih =>
    rw [List.flatMap_cons]
    exact (h a (by simp)).append (ih fun b hb => h b (by simp [hb]))

theorem Framed.noText {a : List DrawCall} (h : a.filterMap DrawCall.text? = []) : Framed Q a := by
  intro pre label x y gc color post e
  rw [List.filterMap_eq_nil_iff] at h
  have := h (.text label x y gc color) (by simp [e])
  simp [DrawCall.text?] at this

mutual

theorem Fragment.places_sized : ∀ (f : Fragment) (anc : List Fragment), ∀ p ∈ f.places anc,
    ∀ st r seg, p.2 = .text st r seg → (st, r.size, seg) ∈ f.texts
  | .box s g m cs, anc => by
    intro p hp st r seg e
    rcases List.mem_cons.1 hp with rfl | hp
    · cases e
    · exact placesAll_sized cs _ p hp st r seg e
  | .anonymous s cs m, anc => by
    intro p hp st r seg e
    rcases List.mem_cons.1 hp with rfl | hp
    · cases e
    · exact placesAll_sized cs _ p hp st r seg e
  | .text s r' t, anc => by
    intro p hp st r seg e
    rw [Fragment.places, List.mem_singleton] at hp
    subst hp
    cases e
    simp [Fragment.texts]

theorem placesAll_sized : ∀ (fs anc : List Fragment), ∀ p ∈ placesAll anc fs,
    ∀ st r seg, p.2 = .text st r seg → (st, r.size, seg) ∈ textsAll fs
  | [], _ => by simp [placesAll]
  | f :: fs, anc => by
    intro p hp st r seg e
    rcases List.mem_append.1 hp with hp | hp
    · exact List.mem_append_left _ (f.places_sized anc p hp st r seg e)
    · exact List.mem_append_right _ (placesAll_sized fs anc p hp st r seg e)

end

/-- The call that records the place of a text: from the point where the text is drawn to the right
by its width, and from its ascent above the baseline down by the line height. -/
def Recorded (E : TextEnv) (P : Style → Font → Prop) (label : String) (x y : ℚ) (gc : GCtx)
    (color : RGBA) (rec : DrawCall) : Prop :=
  ∃ st font, P st font ∧ gc = font.gc ∧ color = st.val .color ∧ label ≠ "" ∧
    rec = .bbox x (y - font.ascent) (E.width font label.toList) (lineHeightOf st)

theorem paintPage_framed {E : TextEnv} {P : Style → Font → Prop} {size : PVec2 Length}
    {fs : List Fragment} (hu : uprightAll fs) (hf : ∀ t ∈ textsAll fs, Fitted E P t) :
    Framed (Recorded E P) (paintPage size fs).calls := by
  rw [paintPage, paintAll_own ⟨0, 0⟩ fs [] _ hu (by simp [sumOffsets, pvec2_add])]
  refine Framed.flatMap fun p hp => ?_
  have hcalls := ownCalls_text (⟨0, 0⟩ + sumOffsets p.1) p.2
  cases h2 : p.2 with
  | text st r seg =>
    have hm := hf _ (placesAll_sized fs [] p hp st r seg h2)
    intro pre label x y gc color post e
    simp only [ownCalls] at e
    match pre, e with
    | [], e => simp at e
    | [b], e =>
      simp only [List.singleton_append, List.cons.injEq, DrawCall.text.injEq] at e
      obtain ⟨rfl, ⟨rfl, rfl, rfl, rfl, rfl⟩, -⟩ := e
      refine ⟨[], _, rfl, st, seg.font, hm.run, rfl, rfl, ?_, ?_⟩
      · intro h0
        apply hm.text
        have := congrArg String.toList h0
        simpa using this
      · have h3 := hm.width
        have h4 := hm.height
        simp only at h3 h4
        simp only [h3, h4, String.toList_ofList, DrawCall.bbox.injEq, true_and, and_true]
        ring
    | b :: c :: pre, e =>
      simp at e
  | anonymous r cs m => exact .noText (by rw [h2] at hcalls; exact hcalls)
  | box st g m cs => exact .noText (by rw [h2] at hcalls; exact hcalls)

/-! ## Pages -/

theorem layoutDoc_fitted {n : Nat} {d : Doc} {size : PVec2 Length} {css : Option Text}
    {fs : List Fragment} (h : X.layoutDoc n d size css = .ok fs) :
    ∃ author, X.parseStylesheets d css = .ok author ∧ uprightAll fs ∧
      ∀ t ∈ textsAll fs, Fitted X.env
        (BoxContext.of X.colors X.attr X.userAgent author d X.env).Run t := by
  unfold Externals.layoutDoc at h
  obtain ⟨author, h1, h⟩ := bind_eq_ok.1 h
  obtain ⟨root, h2, h⟩ := bind_eq_ok.1 h
  obtain ⟨fs', h3, h⟩ := bind_eq_ok.1 h
  split at h
  · cases h
  · cases h
    exact ⟨author, h1, rootLayout_up h3, rootLayout_fits
      ⟨boxTree_sound (styleSound_of _ _ _ _ _ _) h2, boxTree_runs h2⟩ h3⟩

/-- C71 in full: whatever is rendered, for every text that is drawn there is an element of the
document such that the text is drawn in the colour and with the font of the (computed) style of the
element, and the room recorded for it is the inline box of CSS: exactly as wide as these characters
are in this font, as high as the line height of this style, with half of the leading above and half of
it below. -/
def C71_full : Prop :=
  ∀ (X : Externals) (n : Nat) (html css : Text) (size : PVec2 Length) (pre post : List DrawCall)
    (label : String) (x y : ℚ) (gc : GCtx) (color : RGBA),
    (X.renderHtml n html css size).calls = pre ++ .text label x y gc color :: post →
    ∃ d author id st pre', X.parseHtml html = .ok d ∧ X.parseStylesheets d (some css) = .ok author ∧
      (BoxContext.of X.colors X.attr X.userAgent author d X.env).StyleAt id st ∧
      gc = (X.env.font st).gc ∧ color = st.val .color ∧ label ≠ "" ∧
      pre = pre' ++ [.bbox x (y - ascentOf st (X.env.font st))
        (X.env.width (X.env.font st) label.toList) (lineHeightOf st)]

/-- **C71**, except that the room is recorded too low by half the leading: its top is the top of the
glyphs instead of the top of the line. -/
theorem C71_text_room_partial {n : Nat} {html css : Text} {size : PVec2 Length} {pre post : List DrawCall}
    {label : String} {x y : ℚ} {gc : GCtx} {color : RGBA}
    (h : (X.renderHtml n html css size).calls = pre ++ .text label x y gc color :: post) :
    ∃ d author id st pre', X.parseHtml html = .ok d ∧ X.parseStylesheets d (some css) = .ok author ∧
      (BoxContext.of X.colors X.attr X.userAgent author d X.env).StyleAt id st ∧
      gc = (X.env.font st).gc ∧ color = st.val .color ∧ label ≠ "" ∧
      pre = pre' ++ [.bbox x (y - (X.env.font st).ascent)
        (X.env.width (X.env.font st) label.toList) (lineHeightOf st)] := by
  unfold Externals.renderHtml Externals.layoutHtml at h
  cases hd : X.parseHtml html with
  | error p => rw [hd] at h; simp [bind, Except.bind, Trace.after] at h
  | ok d =>
    simp only [hd, bind, Except.bind] at h
    cases hl : X.layoutDoc n d size (some css) with
    | error p => rw [hl] at h; simp [Trace.after] at h
    | ok fs =>
      rw [hl] at h
      obtain ⟨author, h1, hu, hf⟩ := layoutDoc_fitted hl
      obtain ⟨pre', r, e, st, font, ⟨⟨id, hs⟩, hr⟩, hg, hc, hn, hb⟩ :=
        paintPage_framed hu hf _ _ _ _ _ _ _ h
      have hfont : font = X.env.font st := hr
      subst hfont
      exact ⟨d, author, id, st, pre', rfl, h1, hs, hg, hc, hn, by rw [e, hb]⟩

/-- the name by which R knows a font family: generic families are `sans`, `serif` and `mono`
(there is nothing for `cursive` and `fantasy`), others have their own name -/
def rFamily (f : FontFamily) : String :=
  match f with
  | .familyName s => String.ofList s
  | .genericSerif => "serif"
  | .genericMonospace => "mono"
  | _ => "sans"

theorem rName_eq (f : FontFamily) : f.rName = rFamily f := by cases f <;> rfl

/-- a font family that R can be asked for: see C06 -/
def FamilyOk (st : Style) : Prop :=
  '\x00' ∉ (rFamily (st.val .fontFamily)).toList ∧
    (rFamily (st.val .fontFamily)).utf8ByteSize ≤ 200

/-- the font of a style, with the metrics of R -/
theorem ofMetrics_font (R : Metrics) (dflt : Font) {st : Style} (h : FamilyOk st) :
    ∃ gc, fontGCtx (rFamily (st.val .fontFamily)) (st.val .fontStyle) (st.val .fontWeight)
        (st.val .fontSize) = .ok gc ∧
      (TextEnv.ofMetrics R dflt).font st =
        { size := st.val .fontSize, ascent := 96 * (R gc "gjpqyQ").ascent,
          descent := 96 * (R gc "gjpqyQ").descent, spaceAdvanceWidth := 96 * (R gc " ").width,
          gc := gc } := by
  have h1 := (C06_fontfamily_partial GCtx.new (rFamily (st.val .fontFamily))).1.2 h
  refine ⟨_, by rw [fontGCtx, h1]; rfl, ?_⟩
  simp only [TextEnv.ofMetrics, Font.newFromComputedValues, rName_eq, Font.new, fontGCtx, h1, bind, Except.bind,
    pure, Except.pure, stringMetricsInternal]
  rfl

/-- **C71** In terms of R: the text is drawn with the family, face and size (in points) of the style
of the element, and the room taken for it is exactly what R measures for the same characters with the
same graphics parameters. -/
theorem C71_measured_as_drawn_partial {R : Metrics} {dflt : Font} (hX : X.env = .ofMetrics R dflt)
    {n : Nat} {html css : Text} {size : PVec2 Length} {pre post : List DrawCall}
    {label : String} {x y : ℚ} {gc : GCtx} {color : RGBA}
    (h : (X.renderHtml n html css size).calls = pre ++ .text label x y gc color :: post) :
    ∃ d author id st pre', X.parseHtml html = .ok d ∧ X.parseStylesheets d (some css) = .ok author ∧
      (BoxContext.of X.colors X.attr X.userAgent author d X.env).StyleAt id st ∧
      (FamilyOk st →
        (gparOf gc).fontfamily = rFamily (st.val .fontFamily) ∧
        (gparOf gc).fontface =
          faceNumber (st.val .fontStyle ≠ FontStyle.normal) (st.val .fontWeight = FontWeight.bold) ∧
        (gparOf gc).fontsize * 96 = st.val .fontSize * 72 ∧
        color = st.val .color ∧
        pre = pre' ++ [.bbox x (y - 96 * (R gc "gjpqyQ").ascent) (96 * (R gc label).width)
          (lineHeightOf st)]) := by
  obtain ⟨d, author, id, st, pre', h1, h2, h3, h4, h5, -, h7⟩ := C71_text_room_partial h
  refine ⟨d, author, id, st, pre', h1, h2, h3, fun hf => ?_⟩
  obtain ⟨g, hg, he⟩ := ofMetrics_font R dflt hf
  rw [hX, he] at h4 h7
  simp only at h4
  subst h4
  obtain ⟨c1, c2, c3⟩ := C04_font _ _ _ _ _ hg
  refine ⟨c1, c2, c3, h5, ?_⟩
  rw [h7]
  simp [TextEnv.ofMetrics]

/-! ## Examples -/

/-- metrics of a font with an ascent of 3/4 em and a descent of 1/4 em, all characters half an em wide -/
def demoMetrics : Metrics := fun gc t =>
  ⟨gc.fontsize / 96, gc.fontsize / 288, t.length * gc.fontsize / 144⟩

/-- `opsExternals` with these metrics -/
def metricExternals (ops : List Doc.SinkOp) : Externals :=
  { opsExternals ops with env := .ofMetrics demoMetrics ⟨0, 0, 0, 0, GCtx.new⟩ }

/-- the texts of a page, each with what is recorded before -/
def recordedTexts : List DrawCall → List (String × ℚ × ℚ × DrawCall)
  | r :: .text l x y _ _ :: cs => (l, x, y, r) :: recordedTexts cs
  | _ :: cs => recordedTexts cs
  | [] => []

/-- In a line from 0 to 19.2 the text has its baseline at 13.6 (half of the leading of 3.2 is above
the ascent of 12); the recorded room starts at 1.6 instead of 0. -/
example : recordedTexts ((metricExternals plainOps).renderHtml 40 [] [] ⟨200, 100⟩).calls =
    [("a", 0, 68/5, .bbox 0 (8/5) 8 (96/5)), ("b", 0, 164/5, .bbox 0 (104/5) 8 (96/5))] := by
  decide +kernel

/-- **C71 is false**: the leading is recorded below the text, so that the room sticks out of the
line. -/
theorem C71_full_false : ¬ C71_full := by
  intro h
  have hc : ((opsExternals plainOps).renderHtml 40 [] [] ⟨200, 100⟩).calls =
      [.bbox 0 0 200 (192/5), .bbox 0 0 200 (192/5), .bbox 0 0 200 (96/5), .bbox 0 0 200 (96/5),
        .bbox 0 (8/5) 10 (96/5)] ++ .text "a" 0 (68/5) GCtx.new ⟨0, 0, 0, 255⟩ ::
      ((opsExternals plainOps).renderHtml 40 [] [] ⟨200, 100⟩).calls.drop 6 := by decide +kernel
  obtain ⟨d, author, id, st, pre', -, -, -, -, -, -, e⟩ := h _ _ _ _ _ _ _ _ _ _ _ _ hc
  have e1 := congrArg List.getLast? e
  rw [List.getLast?_concat] at e1
  have e2 : DrawCall.bbox 0 (8/5) 10 (96/5) = _ := Option.some.inj e1
  rw [DrawCall.bbox.injEq] at e2
  have e3 := e2.2.2.2
  replace e2 := e2.2.1
  rw [ascentOf, ← e3] at e2
  simp only [opsExternals] at e2
  norm_num at e2

end Sinab
