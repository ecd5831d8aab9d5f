import Verif.Lemmas.ZoomBoxes
import Verif.Props.Read

/-! Magnification of a page (C81). -/

namespace Sinab

open Sinab.Zoom

/-- C81 for box trees: on a device whose fonts are `k` times as large, boxes with lengths `k` times as large are laid
out on a page `k` times as large exactly when the given boxes are laid out on the given page, and what is drawn is the given drawing,
magnified. -/
theorem C81_zoom (z : Zoom) (hz : z.KeepsColours) {E E' : TextEnv} (h : z.Fonts E E') (b : Bfc) (size : PVec2 Length) :
    (∀ fs, rootLayout E b size = .ok fs → ∃ fs', rootLayout E' (z.bfc b) (z.psize size) = .ok fs' ∧
      (paintPage (z.psize size) fs').calls = (paintPage size fs).calls.map z.call ∧
      (paintPage (z.psize size) fs').panic = (paintPage size fs).panic) ∧
    (∀ e, rootLayout E b size = .error e → rootLayout E' (z.bfc b) (z.psize size) = .error e) := by
  have hl := rootLayout_z z h b size
  refine ⟨fun fs hfs => ⟨z.frags fs, by rw [hl, hfs]; rfl, ?_, ?_⟩, fun e he => by rw [hl, he]; rfl⟩
  · rw [paintPage_z _ hz]; rfl
  · rw [paintPage_z _ hz]; rfl

/-- the boxes of a page, with the mark for floats -/
theorem Page.boxes_eq {C : BoxContext} {E : TextEnv} {kids : NodeId → List NodeId} {st : Style}
    {cs : List Styled} {b : Bfc} {size : PVec2 Length} {fs : List Fragment} (h : Page C E kids st cs b size fs) :
    b = if (st.val .position).isAbsolutelyPositioned then
        .mk (.blockLevelBoxes [.outOfFlowAbsolutelyPositionedBox st
          (.mk (containerOf C st cs).1 (containerOf C st cs).2.1)]) false
      else if (st.val .float).isFloating then
        .mk (.blockLevelBoxes [.outOfFlowFloatBox st (.mk (containerOf C st cs).1 (containerOf C st cs).2.1)]) true
      else .mk (.blockLevelBoxes [.independent st (.mk (containerOf C st cs).1 (containerOf C st cs).2.1)]) false := by
  obtain ⟨root, hr, hid, hst, hs⟩ := h.content
  obtain ⟨n, hb⟩ := h.boxes
  unfold boxTree at hb
  rw [hr] at hb
  simp only [bind, Except.bind, hst] at hb
  unfold constructRoot at hb
  rw [if_neg h.shown] at hb
  cases hc : constructContainer C n st root LayoutData.fresh with
  | error e => rw [hc] at hb; cases hb
  | ok r =>
    have hB : Built C kids st root cs LayoutData.fresh n r := ⟨h.forest, hid, hs, fun _ _ => rfl, hc⟩
    obtain ⟨_, hres⟩ := hB.result
    rw [hc, hres] at hb
    simp only [bind, Except.bind, pure, Except.pure] at hb
    split
    · rename_i ha
      rw [if_pos ha] at hb
      injection hb with hb
      exact hb.symm
    · rename_i ha
      rw [if_neg ha] at hb
      split
      · rename_i hf
        rw [if_pos hf] at hb
        injection hb with hb
        exact hb.symm
      · rename_i hf
        rw [if_neg hf] at hb
        injection hb with hb
        exact hb.symm

theorem Page.zoom_boxes (z : Zoom) {E E' : TextEnv} (hE : z.Fonts E E') {C C' : BoxContext}
    {kids kids' : NodeId → List NodeId} {st : Style} {cs : List Styled} {b b' : Bfc} {size size' : PVec2 Length}
    {fs fs' : List Fragment} (h : Page C E kids st cs b size fs)
    (h' : Page C' E' kids' (z.style st) (z.styledAll cs) b' size' fs') : b' = z.bfc b := by
  have hC : z.SameFonts C C' := by
    obtain ⟨_, _, _, _, _, _, rfl⟩ := h.context
    obtain ⟨_, _, _, _, _, _, rfl⟩ := h'.context
    exact hE.font
  obtain ⟨c1, c2⟩ := containerOf_z hC st cs
  have e1 := h.boxes_eq
  have e2 := h'.boxes_eq
  have hp : (z.style st).val .position = st.val .position := rfl
  have hf : (z.style st).val .float = st.val .float := rfl
  rw [c1, c2, hp, hf] at e2
  rw [e1, e2]
  split
  · rfl
  · split <;> rfl

/-- C81 for documents: if the lengths in the styles of a document are `k` times those of another, and so are the fonts, then
on a page `k` times as large what is drawn is the drawing of the other, magnified: the same texts, rectangles and lines in the same order
and colours, at `k` times the positions. -/
theorem C81_document (z : Zoom) (hz : z.KeepsColours) {E E' : TextEnv} (hE : z.Fonts E E') {C C' : BoxContext}
    {kids kids' : NodeId → List NodeId} {st : Style} {cs : List Styled} {b b' : Bfc} {size : PVec2 Length}
    {fs fs' : List Fragment} (h : Page C E kids st cs b size fs)
    (h' : Page C' E' kids' (z.style st) (z.styledAll cs) b' (z.psize size) fs') :
    (paintPage (z.psize size) fs').calls = (paintPage size fs).calls.map z.call := by
  have e := Page.zoom_boxes z hE h h'
  obtain ⟨gs, g1, g2, _⟩ := (C81_zoom z hz hE b size).1 fs h.laidOut
  have hl := h'.laidOut
  rw [e] at hl
  cases hl.symm.trans g1
  exact g2

/-! ## Example -/

/-- a device whose fonts can be scaled: the metrics are proportional to the font size -/
def zoomEnv : TextEnv where
  font st :=
    let s : ℚ := st.val .fontSize
    ⟨s, 3 / 4 * s, 1 / 4 * s, 1 / 4 * s, { GCtx.new with fontsize := s }⟩
  width f t := f.size / 2 * t.length

/-- three times as large -/
def threefold : Zoom where
  k := 3
  pos := by norm_num
  gc g := { g with fontsize := 3 * g.fontsize }

example : threefold.KeepsColours := fun _ _ => rfl

theorem zoomEnv_fonts : threefold.Fonts zoomEnv zoomEnv := by
  refine ⟨fun s => ?_, fun f t => ?_⟩
  · show Font.mk (3 * (s.val .fontSize : ℚ)) (3 / 4 * (3 * (s.val .fontSize : ℚ))) (1 / 4 * (3 * (s.val .fontSize : ℚ)))
        (1 / 4 * (3 * (s.val .fontSize : ℚ))) { GCtx.new with fontsize := 3 * (s.val .fontSize : ℚ) } =
      Font.mk (3 * (s.val .fontSize : ℚ)) (3 * (3 / 4 * (s.val .fontSize : ℚ))) (3 * (1 / 4 * (s.val .fontSize : ℚ)))
        (3 * (1 / 4 * (s.val .fontSize : ℚ))) { GCtx.new with fontsize := 3 * (s.val .fontSize : ℚ) }
    generalize (s.val .fontSize : ℚ) = q
    rw [mul_left_comm 3 (3 / 4) q, mul_left_comm 3 (1 / 4) q]
  · simp only [zoomEnv, Zoom.font, threefold]
    ring

/-- a style sheet with lengths in a given unit -/
def zoomSheet (u : ℚ) : StyleSet nameEngine where
  rules :=
    [("html", ⟨[.value .fontSize (.absolute (8 * u))], [false], ⟨false, false⟩, ⟨true, false⟩⟩),
     ("p", .one (.value .marginTop (.length (.absolute (4 * u))))),
     ("p", .one (.value .paddingLeft (.length (.absolute (2 * u))))),
     ("p", .one (.value .width (.percentage (3 / 4)))),
     ("p", .one (.value .borderTopStyle .solid)),
     ("p", .one (.value .borderTopWidth (.length (.absolute (1 * u)))))]

/-- a document for the example -/
def zoomDoc : Doc := pageOf [.node "p" [.text "ab cd"], .text "ef", .node "abs" [.text "gh"]]

/-- the document with the style sheet -/
def zoomContext (u : ℚ) : BoxContext :=
  .of (S := nameEngine) ⟨fun _ => none, fun _ => none, fun _ _ => none⟩ (fun _ => []) nameSheet (zoomSheet u) zoomDoc zoomEnv

/-- the style of its root element -/
def zoomStyle (u : ℚ) : Style :=
  match (zoomContext u).styleOf 2 none with
  | .ok s => s
  | .error _ => Style.initial

/-- its content -/
def zoomContent (u : ℚ) : List Styled :=
  (readContent (zoomContext u) (linkedKids zoomDoc) 40 (zoomStyle u) (linkedKids zoomDoc 2)).getD []

/-- what is drawn -/
def zoomDrawn (u : ℚ) : Option (List DrawCall) :=
  match boxTree (zoomContext u) 40 with
  | .ok b => match rootLayout zoomEnv b ⟨32 * u, 100 * u⟩ with
    | .ok fs => some (paintPage ⟨32 * u, 100 * u⟩ fs).calls
    | .error _ => none
  | .error _ => none

/-- the texts and lines of a drawing -/
def drawnMarks (cs : List DrawCall) : List (String × ℚ × ℚ × ℚ) :=
  cs.filterMap fun
    | .text t x y g _ => some (t, x, y, g.fontsize)
    | .line ((x, y) :: _) _ w _ => some ("line", x, y, w)
    | _ => none

example : (zoomDrawn 1).map drawnMarks =
    some [("line", 0, 9 / 2, 1), ("ab cd", 2, 59 / 5, 8), ("ef", 0, 107 / 5, 8), ("gh", 8, 107 / 5, 8)] := by decide +kernel

example : (zoomDrawn 3).map drawnMarks =
    some [("line", 0, 27 / 2, 3), ("ab cd", 6, 177 / 5, 24), ("ef", 0, 321 / 5, 24), ("gh", 24, 321 / 5, 24)] := by
  decide +kernel

example : forestCheck zoomDoc = true := by decide +kernel

example : zoomStyle 3 = threefold.style (zoomStyle 1) := by decide +kernel

example : zoomContent 3 = threefold.styledAll (zoomContent 1) := by
  apply sameAll_eq
  decide +kernel

end Sinab
