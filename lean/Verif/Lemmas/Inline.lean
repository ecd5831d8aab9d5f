import Verif.Lemmas.Segment

namespace Sinab

/-! ### finish_line -/

theorem finishOpenBoxes_pos (level : NestLevel) (ps : List PartialBox) (pos : Length) :
    (finishOpenBoxes level ps pos).2.2 = pos := by
  induction ps generalizing level pos with
  | nil => rfl
  | cons p ps ih =>
    simp only [finishOpenBoxes]
    rw [ih]
    simp [PartialBox.finishLayout, PartialBox.fragment]

/-- the loop of `finish_line` without the inline position, which does not change -/
theorem finishLine_pos (s : IfcState) : s.finishLine.inlinePosition = 0 := rfl

@[simp] theorem finishLine_cb (s : IfcState) : s.finishLine.cb = s.cb := rfl
@[simp] theorem finishLine_align (s : IfcState) : s.finishLine.textAlign = s.textAlign := rfl

/-! ### Frame facts: what is still to be done is untouched by text layout -/

/-- remaining boxes of all open levels, innermost first -/
def IfcState.rems (s : IfcState) : List (List InlineLevelBox) :=
  s.current.remaining :: s.stack.map (·.parent.remaining)

theorem finishOpenBoxes_rems (level : NestLevel) (ps : List PartialBox) (pos : Length) :
    (finishOpenBoxes level ps pos).1.remaining = level.remaining ∧
    (finishOpenBoxes level ps pos).2.1.map (·.parent.remaining) = ps.map (·.parent.remaining) := by
  induction ps generalizing level pos with
  | nil => exact ⟨rfl, rfl⟩
  | cons p ps ih =>
    refine ⟨rfl, ?_⟩
    simp only [finishOpenBoxes, List.map_cons]
    rw [(ih _ _).1, (ih _ _).2]
    rfl

theorem setTopLevel_rems (level top : NestLevel) (ps : List PartialBox)
    (h : top.remaining = (topLevel level ps).remaining) :
    (setTopLevel level top ps).1.remaining = level.remaining ∧
    (setTopLevel level top ps).2.map (·.parent.remaining) = ps.map (·.parent.remaining) := by
  induction ps generalizing level with
  | nil => exact ⟨h, rfl⟩
  | cons p ps ih =>
    refine ⟨rfl, ?_⟩
    simp only [setTopLevel, List.map_cons]
    rw [(ih p.parent h).1, (ih p.parent h).2]

theorem finishLine_rems (s : IfcState) : s.finishLine.rems = s.rems := by
  simp only [IfcState.rems, IfcState.finishLine]
  rw [(setTopLevel_rems _ _ _ (by rfl)).1, (setTopLevel_rems _ _ _ (by rfl)).2,
    (finishOpenBoxes_rems _ _ _).1, (finishOpenBoxes_rems _ _ _).2]

/-! ### Text -/

theorem pushText_snd (E : TextEnv) (s : IfcState) (st : Style) (font : Font)
    (shaped : ShapedSegment) (nl : Bool) (hfr : shaped.Fresh E) (hf : shaped.font = font) :
    (s.pushText E st font shaped nl).2.glyphs = [] ∧ (s.pushText E st font shaped nl).2.Fresh E ∧
      (s.pushText E st font shaped nl).2.font = font := by
  unfold IfcState.pushText
  simp only [ShapedSegment.empty_eq, ShapedSegment.getAdvanceWidth_glyphs]
  by_cases h : shaped.glyphs = []
  · simp [h, hf, hfr.getAdvanceWidth]
  · simp [h, ShapedSegment.new, ShapedSegment.Fresh, CacheOk]

theorem pushText_rems (E : TextEnv) (s : IfcState) (st : Style) (font : Font)
    (shaped : ShapedSegment) (nl : Bool) : (s.pushText E st font shaped nl).1.rems = s.rems := by
  unfold IfcState.pushText IfcState.rems
  simp only
  split <;> split <;> rfl

@[simp] theorem pushText_cb (E : TextEnv) (s : IfcState) (st : Style) (font : Font)
    (shaped : ShapedSegment) (nl : Bool) : (s.pushText E st font shaped nl).1.cb = s.cb := by
  unfold IfcState.pushText
  simp only
  split <;> split <;> rfl

@[simp] theorem pushText_align (E : TextEnv) (s : IfcState) (st : Style) (font : Font)
    (shaped : ShapedSegment) (nl : Bool) :
    (s.pushText E st font shaped nl).1.textAlign = s.textAlign := by
  unfold IfcState.pushText
  simp only
  split <;> split <;> rfl

/-- A step made while a text run is laid out: text is put on the line, or the line is
finished. -/
inductive TextStep (E : TextEnv) (st : Style) (font : Font) : IfcState → IfcState → Prop
  | push (s : IfcState) (shaped : ShapedSegment) (nl : Bool) (hfr : shaped.Fresh E)
      (hf : shaped.font = font) : TextStep E st font s (s.pushText E st font shaped nl).1
  | line (s : IfcState) : TextStep E st font s s.finishLine

/-- `TextRunsTo s pieces s'`: putting the pieces on the current line and on new lines
leads from `s` to `s'`.  A piece is the shown text and whether a newline ends it. -/
inductive TextRunsTo (E : TextEnv) (st : Style) (font : Font) :
    IfcState → List (Text × Bool) → IfcState → Prop
  | last (s : IfcState) (shaped : ShapedSegment) (hfr : shaped.Fresh E)
      (hf : shaped.font = font) :
      TextRunsTo E st font s [(shaped.glyphs, false)] (s.pushText E st font shaped false).1
  | more (s s' : IfcState) (shaped : ShapedSegment) (nl : Bool) (pieces) (hfr : shaped.Fresh E)
      (hf : shaped.font = font) :
      TextRunsTo E st font (s.pushText E st font shaped nl).1.finishLine pieces s' →
      TextRunsTo E st font s ((shaped.glyphs, nl) :: pieces) s'

theorem TextRunsTo.ne_nil {E : TextEnv} {st : Style} {font : Font} {s s' : IfcState} {ps}
    (h : TextRunsTo E st font s ps s') : ps ≠ [] := by
  cases h <;> simp

theorem TextRunsTo.rems {E : TextEnv} {st : Style} {font : Font} {s s' : IfcState} {ps}
    (h : TextRunsTo E st font s ps s') : s'.rems = s.rems := by
  induction h with
  | last s shaped _ _ => exact pushText_rems ..
  | more s s' shaped nl ps _ _ _ ih => rw [ih, finishLine_rems, pushText_rems]

/-- induction principle: what every step preserves holds at the end -/
theorem TextRunsTo.invariant {E : TextEnv} {st : Style} {font : Font} {s s' : IfcState} {ps}
    (h : TextRunsTo E st font s ps s') (P : IfcState → Prop)
    (hstep : ∀ s s', TextStep E st font s s' → P s → P s') (hs : P s) : P s' := by
  induction h with
  | last s shaped hfr hf => exact hstep _ _ (.push s shaped false hfr hf) hs
  | more s s' shaped nl ps hfr hf _ ih =>
    exact ih (hstep _ _ (.line _) (hstep _ _ (.push s shaped nl hfr hf) hs))

theorem LineEnd.rest_lt {W : Text → ℚ} {avail : ℚ} {first : Bool} {shown dropped rest : Text}
    {nl : Bool} (h : LineEnd W avail first shown dropped rest nl) (hm : rest ≠ [] ∨ nl = true) :
    2 * rest.length < 2 * (shown ++ dropped ++ rest).length + (if first then 1 else 0) := by
  cases h <;> simp at hm ⊢ <;> omega

/-- the segment `pushText` continues with -/
def nextSegment (E : TextEnv) (font : Font) (shaped : ShapedSegment) : ShapedSegment :=
  if !(shaped.getAdvanceWidth E).2.empty then ShapedSegment.new font
  else (shaped.getAdvanceWidth E).2

theorem pushText_next (E : TextEnv) (s : IfcState) (st : Style) (font : Font)
    (shaped : ShapedSegment) (nl : Bool) :
    (s.pushText E st font shaped nl).2 = nextSegment E font shaped := by
  unfold IfcState.pushText nextSegment
  simp only
  split <;> split <;> rfl

/-- The pieces that `wrapLoop` cuts a text to, as a function of the text and the widths -/
def wrapPieces (E : TextEnv) (font : Font) (full : ℚ) : Nat → ℚ → Text → ShapedSegment →
    Option (SegState × Text) → List (Text × Bool)
  | 0, _, _, _, _ => []
  | fuel + 1, avail, chars, shaped, lb =>
    match scanLine E avail chars shaped lb with
    | .error _ => []
    | .ok r => (r.shaped.glyphs, r.newline) ::
      if !r.chars.isEmpty || r.newline then
        wrapPieces E font full fuel full r.chars (nextSegment E font r.shaped) none
      else []

/-- The pieces that a text run is cut to, as a function of the text and the widths -/
def cutRun (E : TextEnv) (ws : WhiteSpace) (font : Font) (full avail : ℚ) (text : Text) :
    List (Text × Bool) :=
  match ws with
  | .nowrap | .pre => newlinePieces (splitNewlines text)
  | _ => wrapPieces E font full (textFuel text) avail text (ShapedSegment.new font)
      (some ((ShapedSegment.new font).save, text))

/-- the outer loop of `layout_wrap` for a sufficient number of steps -/
theorem wrapLoop_spec (E : TextEnv) (st : Style) (font : Font) : ∀ (fuel : Nat) (first : Bool)
    (s : IfcState) (chars : Text) (shaped : ShapedSegment) (lb : Option (SegState × Text)),
    shaped.Fresh E → shaped.font = font → shaped.glyphs = [] →
    BreakOk E font (s.cb.inlineSize - s.inlinePosition) first chars [] lb →
    2 * chars.length + (if first then 1 else 0) < fuel →
    ∃ s' lines pieces, wrapLoop E st font fuel s chars shaped lb = .ok s' ∧
      Wrapped (E.width font) s.cb.inlineSize (s.cb.inlineSize - s.inlinePosition) first chars lines ∧
      TextRunsTo E st font s pieces s' ∧ pieces = lines.map (fun l => (l.shown, l.newline)) ∧
      pieces = wrapPieces E font s.cb.inlineSize fuel (s.cb.inlineSize - s.inlinePosition) chars
        shaped lb := by
  intro fuel
  induction fuel with
  | zero => intro first s chars shaped lb _ _ _ _ hfuel; omega
  | succ fuel ih =>
    intro first s chars shaped lb hfr hf hg hlb hfuel
    obtain ⟨r, dropped, hscan, hrfr, hrf, hT, hend⟩ :=
      scanLine_spec E (s.cb.inlineSize - s.inlinePosition) first chars chars shaped lb hfr
        (by simp [hg]) (by simp [hg]) (by rw [hg, hf]; exact hlb)
    rw [hf] at hend hrf
    have hsnd := pushText_snd E s st font r.shaped r.newline hrfr hrf
    rw [wrapLoop, wrapPieces]
    simp only [hscan, bind, Except.bind]
    by_cases hm : r.chars ≠ [] ∨ r.newline = true
    · have hc : (!r.chars.isEmpty || r.newline) = true := by
        rcases hm with hm | hm
        · simp [hm]
        · simp [hm]
      rw [if_pos hc]
      have hlt := hend.rest_lt hm
      rw [← hT] at hlt
      obtain ⟨s', lines, pieces, h1, h2, h3, h4, h5⟩ := ih false
        (s.pushText E st font r.shaped r.newline).1.finishLine r.chars
        (s.pushText E st font r.shaped r.newline).2 none hsnd.2.1 hsnd.2.2 hsnd.1
        ⟨rfl, unbreakable_nil⟩ (by simp; omega)
      refine ⟨s', ⟨r.shaped.glyphs, dropped, r.newline⟩ :: lines, (r.shaped.glyphs, r.newline) :: pieces, h1, ?_,
        .more s s' r.shaped r.newline pieces hrfr hrf h3, by simp [h4], ?_⟩
      swap
      · rw [if_pos hc, h5, pushText_next]
        simp [finishLine_pos]
      rw [hT]
      refine .more hend hm ?_
      simpa [finishLine_pos] using h2
    · have hm' : r.chars = [] ∧ r.newline = false := by
        constructor
        · by_contra h; exact hm (.inl h)
        · by_contra h; exact hm (.inr (by simpa using h))
      have hc : ¬ ((!r.chars.isEmpty || r.newline) = true) := by simp [hm'.1, hm'.2]
      rw [if_neg hc]
      refine ⟨_, [⟨r.shaped.glyphs, dropped, false⟩], [(r.shaped.glyphs, false)], rfl, ?_, ?_, rfl,
        by rw [if_neg hc, hm'.2]⟩
      · rw [hT, hm'.1, List.append_nil]
        refine .last ?_
        rw [hm'.1, hm'.2] at hend
        exact hend
      · rw [hm'.2]
        exact .last s r.shaped hrfr hrf

theorem layoutWrap_spec (E : TextEnv) (st : Style) (font : Font) (text : Text) (s : IfcState)
    (fuel : Nat) (h : 2 * text.length + 1 < fuel) :
    ∃ s' lines pieces, layoutWrap E fuel st text font s = .ok s' ∧
      Wrapped (E.width font) s.cb.inlineSize (s.cb.inlineSize - s.inlinePosition) true text lines ∧
      TextRunsTo E st font s pieces s' ∧ pieces = lines.map (fun l => (l.shown, l.newline)) ∧
      pieces = wrapPieces E font s.cb.inlineSize fuel (s.cb.inlineSize - s.inlinePosition) text
        (ShapedSegment.new font) (some ((ShapedSegment.new font).save, text)) :=
  wrapLoop_spec E st font fuel true s text (ShapedSegment.new font) _ (ShapedSegment.fresh_new font)
    rfl rfl ⟨[], [], [], by simp [ShapedSegment.save, ShapedSegment.new, utf8Len],
      (by intro l hl; cases hl), rfl, unbreakable_nil, rfl, by simp, .inr (.inr ⟨rfl, rfl, rfl⟩)⟩ (by simpa using h)

theorem splitNewlines_ne_nil (t : Text) : splitNewlines t ≠ [] := by
  cases t with
  | nil => simp [splitNewlines]
  | cons c cs => unfold splitNewlines; split <;> [simp; split <;> simp]

theorem scanNowrap_spec (E : TextEnv) : ∀ (chars : Text) (shaped : ShapedSegment), shaped.Fresh E →
    (scanNowrap chars shaped).shaped.Fresh E ∧ (scanNowrap chars shaped).shaped.font = shaped.font ∧
    ∃ l ls, splitNewlines chars = l :: ls ∧
      (scanNowrap chars shaped).shaped.glyphs = shaped.glyphs ++ l ∧
      (((scanNowrap chars shaped).newline = false ∧ ls = [] ∧ (scanNowrap chars shaped).chars = []) ∨
       ((scanNowrap chars shaped).newline = true ∧ ls = splitNewlines (scanNowrap chars shaped).chars ∧
        (scanNowrap chars shaped).chars.length < chars.length)) := by
  intro chars
  induction chars with
  | nil => intro shaped h; exact ⟨h, rfl, [], [], rfl, by simp [scanNowrap], .inl ⟨rfl, rfl, rfl⟩⟩
  | cons c cs ih =>
    intro shaped h
    by_cases hc : c = '\n'
    · simp only [scanNowrap, if_pos hc]
      exact ⟨h, trivial, [], splitNewlines cs, by simp [splitNewlines, hc], by simp,
        .inr ⟨trivial, rfl, by simp⟩⟩
    · obtain ⟨h1, h2, l, ls, h3, h4, h5⟩ := ih (shaped.appendChar c) (ShapedSegment.Fresh.appendChar c)
      simp only [scanNowrap, if_neg hc]
      refine ⟨h1, h2, c :: l, ls, by simp [splitNewlines, hc, h3], by simp [h4], ?_⟩
      rcases h5 with h5 | ⟨h5, h6, h7⟩
      · exact .inl h5
      · exact .inr ⟨h5, h6, by simp; omega⟩

theorem layoutNowrap_spec (E : TextEnv) (st : Style) (font : Font) : ∀ (fuel : Nat) (s : IfcState)
    (chars : Text), chars.length < fuel →
    ∃ s' pieces, layoutNowrap E st font fuel s chars = .ok s' ∧
      TextRunsTo E st font s pieces s' ∧ pieces = newlinePieces (splitNewlines chars) := by
  intro fuel
  induction fuel with
  | zero => intro s chars h; omega
  | succ fuel ih =>
    intro s chars hfuel
    obtain ⟨h1, h2, l, ls, h3, h4, h5⟩ := scanNowrap_spec E chars _ (ShapedSegment.fresh_new font)
    rw [layoutNowrap]
    rcases h5 with ⟨hn, hls, hch⟩ | ⟨hn, hls, hlt⟩
    · simp only [hn, hch]
      refine ⟨_, [(l, false)], rfl, ?_, by simp [h3, hls, newlinePieces]⟩
      have := TextRunsTo.last (st := st) s _ h1 h2
      rw [h4] at this
      simpa [ShapedSegment.new] using this
    · obtain ⟨s', pieces, h6, h7, h8⟩ := ih (s.pushText E st font
        (scanNowrap chars (ShapedSegment.new font)).shaped true).1.finishLine
        (scanNowrap chars (ShapedSegment.new font)).chars (by omega)
      simp only [hn, Bool.or_true, if_true]
      refine ⟨s', (l, true) :: pieces, h6, ?_, ?_⟩
      swap
      · obtain ⟨l', ls', hl'⟩ := List.exists_cons_of_ne_nil (splitNewlines_ne_nil
          (scanNowrap chars (ShapedSegment.new font)).chars)
        rw [h3, hls, h8, hl']
        rfl
      have := TextRunsTo.more s s' _ true pieces h1 h2 h7
      rw [h4] at this
      simpa [ShapedSegment.new] using this

theorem layoutTextRun_spec (E : TextEnv) (st : Style) (font : Font) (text : Text) (s : IfcState) :
    ∃ s' pieces, layoutTextRun E st text font s = .ok s' ∧ TextRunsTo E st font s pieces s' ∧
      RunPieces E st font s.cb.inlineSize (s.cb.inlineSize - s.inlinePosition) text pieces ∧
      pieces = cutRun E (st.val .whiteSpace) font s.cb.inlineSize
        (s.cb.inlineSize - s.inlinePosition) text := by
  have hw : ∃ s' pieces, layoutWrap E (textFuel text) st text font s = .ok s' ∧
      TextRunsTo E st font s pieces s' ∧ (∃ lines, Wrapped (E.width font) s.cb.inlineSize
        (s.cb.inlineSize - s.inlinePosition) true text lines ∧
        pieces = lines.map fun l => (l.shown, l.newline)) ∧
      pieces = wrapPieces E font s.cb.inlineSize (textFuel text)
        (s.cb.inlineSize - s.inlinePosition) text
        (ShapedSegment.new font) (some ((ShapedSegment.new font).save, text)) := by
    obtain ⟨s', lines, pieces, h1, h2, h3, h4, h5⟩ :=
      layoutWrap_spec E st font text s (textFuel text) (by simp [textFuel])
    exact ⟨s', pieces, h1, h3, ⟨lines, h2, h4⟩, h5⟩
  have hn : ∃ s' pieces, layoutNowrap E st font (textFuel text) s text = .ok s' ∧
      TextRunsTo E st font s pieces s' ∧ pieces = newlinePieces (splitNewlines text) ∧
      pieces = newlinePieces (splitNewlines text) := by
    obtain ⟨s', pieces, h1, h2, h3⟩ :=
      layoutNowrap_spec E st font (textFuel text) s text (by simp [textFuel]; omega)
    exact ⟨s', pieces, h1, h2, h3, h3⟩
  unfold layoutTextRun RunPieces cutRun
  cases (st.val .whiteSpace : WhiteSpace) <;> first | exact hw | exact hn

/-! ### The texts on the lines -/

theorem leavesOf_append (a b : List Fragment) : leavesOf (a ++ b) = leavesOf a ++ leavesOf b := by
  induction a with
  | nil => simp [leavesOf]
  | cons f fs ih => simp [leavesOf, ih]

theorem leavesOf_singleton (f : Fragment) : leavesOf [f] = f.leaves := by simp [leavesOf]

theorem translateBlock_leaves (b : Length) (f : Fragment) : (f.translateBlock b).leaves = f.leaves := by
  cases f <;> rfl

theorem leavesOf_translate (b : Length) (fs : List Fragment) :
    leavesOf (fs.map (Fragment.translateBlock b)) = leavesOf fs := by
  induction fs with
  | nil => rfl
  | cons f fs ih => simp [leavesOf, ih, translateBlock_leaves]

theorem fragment_leaves (p : PartialBox) (level : NestLevel) (pos : Length) (b : Bool) :
    (p.fragment level pos b).1.leaves = leavesOf level.fragmentsSoFar := by
  unfold PartialBox.fragment
  simp only
  split <;> rfl

theorem finishOpenBoxes_leaves (level : NestLevel) (ps : List PartialBox) (pos : Length) :
    leavesOf (topLevel (finishOpenBoxes level ps pos).1 (finishOpenBoxes level ps pos).2.1).fragmentsSoFar
      = stackLeaves ps ++ leavesOf level.fragmentsSoFar := by
  induction ps generalizing level pos with
  | nil => rfl
  | cons p ps ih =>
    simp only [finishOpenBoxes, topLevel, stackLeaves]
    rw [ih]
    simp [PartialBox.finishLayout, PartialBox.continueOnNextLine, leavesOf_append,
      leavesOf_singleton, fragment_leaves]

/-- after closing all open boxes for a line, only the outermost level has fragments -/
theorem setTop_finishOpen_pending (level : NestLevel) (ps : List PartialBox) (pos : Length)
    (top : NestLevel) (ht : top.fragmentsSoFar = []) :
    let r := finishOpenBoxes level ps pos
    (setTopLevel r.1 top r.2.1).1.fragmentsSoFar = [] ∧
    stackLeaves (setTopLevel r.1 top r.2.1).2 = [] := by
  induction ps generalizing level pos with
  | nil => exact ⟨ht, rfl⟩
  | cons p ps ih =>
    simp only [finishOpenBoxes, setTopLevel, stackLeaves]
    have := ih ((p.finishLayout level pos true).1.continueOnNextLine.parent)
      ((p.finishLayout level pos true).2.2)
    simp only at this
    refine ⟨rfl, ?_⟩
    rw [this.1, this.2]
    rfl

theorem finishLine_lineLeaves (s : IfcState) : s.finishLine.lineLeaves = s.lineLeaves ++ [[]] := by
  have h := setTop_finishOpen_pending s.current s.stack s.inlinePosition
    { topLevel (finishOpenBoxes s.current s.stack s.inlinePosition).1
        (finishOpenBoxes s.current s.stack s.inlinePosition).2.1 with
      maxAscent := 0, maxDescent := 0, fragmentsSoFar := [] } rfl
  simp only at h
  have hp : s.finishLine.pending = [] := by
    simp only [IfcState.pending, IfcState.finishLine, linesFinishLine]
    rw [h.1, h.2]
    rfl
  unfold IfcState.lineLeaves
  rw [hp]
  simp only [IfcState.finishLine, linesFinishLine, List.map_append, List.map_cons, List.map_nil,
    Fragment.leaves, leavesOf_translate, finishOpenBoxes_leaves, IfcState.pending]

theorem pushText_lineLeaves (E : TextEnv) (s : IfcState) (st : Style) (font : Font)
    (shaped : ShapedSegment) (nl : Bool) :
    (s.pushText E st font shaped nl).1.lineLeaves =
      s.lines.map Fragment.leaves ++ [s.pending ++ leafOf st shaped.glyphs] := by
  unfold IfcState.pushText IfcState.lineLeaves IfcState.pending leafOf
  simp only [ShapedSegment.empty_eq, ShapedSegment.getAdvanceWidth_glyphs]
  by_cases h : shaped.glyphs = []
  · simp only [h]
    simp
    split <;> simp
  · simp [h, leavesOf_append, leavesOf_singleton, Fragment.leaves]

theorem lineLeaves_split (s : IfcState) : s.lineLeaves.dropLast = s.lines.map Fragment.leaves ∧
    s.lineLeaves.getLast?.getD [] = s.pending := by
  simp [IfcState.lineLeaves]

theorem TextRunsTo.lineLeaves {E : TextEnv} {st : Style} {font : Font} {s s' : IfcState} {ps}
    (h : TextRunsTo E st font s ps s') :
    s'.lineLeaves = addPieces st s.lineLeaves (ps.map (·.1)) := by
  induction h with
  | last s shaped _ _ =>
    rw [pushText_lineLeaves]
    simp [addPieces, lineLeaves_split]
  | more s s' shaped nl ps _ _ h ih =>
    rw [ih, finishLine_lineLeaves, pushText_lineLeaves]
    obtain ⟨p, ps, rfl⟩ := List.exists_cons_of_ne_nil h.ne_nil
    simp [addPieces, lineLeaves_split]

end Sinab
