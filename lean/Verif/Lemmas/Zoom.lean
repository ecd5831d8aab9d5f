import Verif.Spec.Zoom
import Mathlib.Tactic.Ring
import Mathlib.Tactic.Linarith

/-! Layout commutes with magnification. -/

namespace Sinab.Zoom

variable (z : Zoom)

/-- a vector -/
def vec (v : Vec2 Length) : Vec2 Length := ⟨z.k * v.inline, z.k * v.block⟩

/-- four sides -/
def sides (s : Sides Length) : Sides Length :=
  ⟨z.k * s.inlineStart, z.k * s.inlineEnd, z.k * s.blockStart, z.k * s.blockEnd⟩

/-- a rectangle -/
def rect (r : Rect Length) : Rect Length := ⟨z.vec r.startCorner, z.vec r.size⟩

/-- the geometry of a box -/
def geom (g : BoxGeom) : BoxGeom := ⟨z.rect g.contentRect, z.sides g.padding, z.sides g.border, z.sides g.margin⟩

/-- a collapsed margin -/
def margin (m : CollapsedMargin) : CollapsedMargin := ⟨z.k * m.maxPositive, z.k * m.minNegative⟩

/-- the collapsed margins of a block -/
def margins (m : CollapsedBlockMargins) : CollapsedBlockMargins :=
  ⟨m.collapsedThrough, z.margin m.start, z.margin m.«end»⟩

/-- a text with its font -/
def seg (s : ShapedSegment) : ShapedSegment := ⟨z.font s.font, s.glyphs, s.advanceWidth.map (z.k * ·)⟩

mutual

/-- a fragment -/
def frag : Fragment → Fragment
  | .box st g m cs => .box (z.style st) (z.geom g) (z.margins m) (frags cs)
  | .anonymous r cs mode => .anonymous (z.rect r) (frags cs) mode
  | .text st r t => .text (z.style st) (z.rect r) (z.seg t)

/-- fragments -/
def frags : List Fragment → List Fragment
  | [] => []
  | f :: fs => frag f :: frags fs

end

/-- a containing block -/
def cb (c : ContainingBlock) : ContainingBlock := ⟨z.k * c.inlineSize, z.la c.blockSize, c.mode⟩

/-- a definite containing block -/
def dcb (c : DefiniteContainingBlock) : DefiniteContainingBlock := ⟨z.vec c.size, c.mode⟩

/-- offsets of an absolutely positioned box -/
def offsets : AbsOffsets → AbsOffsets
  | .staticStart s => .staticStart (z.k * s)
  | .start s => .start (z.lp s)
  | .«end» e => .«end» (z.lp e)
  | .both s e => .both (z.lp s) (z.lp e)

/-- an absolutely positioned box that is to be laid out -/
def abs (a : AbsFragment) : AbsFragment :=
  ⟨z.style a.style, z.bfc a.contents, a.treeRank, z.offsets a.inlineStart, z.lpa a.inlineSize, z.offsets a.blockStart,
    z.lpa a.blockSize⟩

/-- the result of laying out children -/
def flow (fc : FlowChildren) : FlowChildren := ⟨z.frags fc.fragments, z.k * fc.blockSize, z.margins fc.margins⟩

/-- a nesting level -/
def level (l : NestLevel) : NestLevel where
  remaining := z.inlines l.remaining
  fragmentsSoFar := z.frags l.fragmentsSoFar
  inlineStart := z.k * l.inlineStart
  blockAscent := z.k * l.blockAscent
  blockDescent := z.k * l.blockDescent
  blockEx := z.k * l.blockEx
  baselineAdjustment := z.k * l.baselineAdjustment
  maxAscent := z.k * l.maxAscent
  maxDescent := z.k * l.maxDescent

/-- an inline box that is being laid out -/
def part (p : PartialBox) : PartialBox where
  style := z.style p.style
  startCorner := z.vec p.startCorner
  padding := z.sides p.padding
  border := z.sides p.border
  margin := z.sides p.margin
  blockAscent := z.k * p.blockAscent
  blockDescent := z.k * p.blockDescent
  lastBoxTreeFragment := p.lastBoxTreeFragment
  parent := z.level p.parent

/-- a state of inline layout -/
def state (s : IfcState) : IfcState where
  cb := z.cb s.cb
  lines := z.frags s.lines
  nextLineBlockPosition := z.k * s.nextLineBlockPosition
  textAlign := s.textAlign
  inlinePosition := z.k * s.inlinePosition
  stack := s.stack.map z.part
  current := z.level s.current

/-- a state of text scanning -/
def scan (s : LineScan) : LineScan := ⟨s.chars, z.seg s.shaped, s.newline⟩

/-- a saved state -/
def saved (s : SegState) : SegState := ⟨s.glyphs, s.advanceWidth.map (z.k * ·)⟩

/-! ### Numbers -/

theorem kne : z.k ≠ 0 := ne_of_gt z.pos

theorem k_eq_zero (a : ℚ) : z.k * a = 0 ↔ a = 0 := by simp [z.kne]

theorem k_max (a b : ℚ) : max (z.k * a) (z.k * b) = z.k * max a b := (mul_max_of_nonneg _ _ z.pos.le).symm

theorem k_min (a b : ℚ) : min (z.k * a) (z.k * b) = z.k * min a b := (mul_min_of_nonneg _ _ z.pos.le).symm

theorem k_max0 (a : ℚ) : max (z.k * a) 0 = z.k * max a 0 := by
  have := z.k_max a 0
  simpa using this

theorem k_min0 (a : ℚ) : min (z.k * a) 0 = z.k * min a 0 := by
  have := z.k_min a 0
  simpa using this

theorem k_lt (a b : ℚ) : z.k * a < z.k * b ↔ a < b := mul_lt_mul_iff_right₀ z.pos

theorem k_le (a b : ℚ) : z.k * a ≤ z.k * b ↔ a ≤ b := mul_le_mul_iff_right₀ z.pos

theorem k_nonneg (a : ℚ) : 0 ≤ z.k * a ↔ 0 ≤ a := by
  have := z.k_le 0 a
  simpa using this

theorem k_pos (a : ℚ) : 0 < z.k * a ↔ 0 < a := by
  have := z.k_lt 0 a
  simpa using this

/-! ### Values -/

theorem lp_rel (v : LengthOrPercentage) (b : ℚ) :
    (z.lp v).percentageRelativeTo (z.k * b) = z.k * v.percentageRelativeTo b := by
  cases v <;> simp [lp, LengthOrPercentage.percentageRelativeTo, mul_assoc]

theorem lpa_rel (v : LengthOrPercentageOrAuto) (b : ℚ) :
    (z.lpa v).percentageRelativeTo (z.k * b) = z.la (v.percentageRelativeTo b) := by
  cases v <;> simp [lpa, la, LengthOrPercentageOrAuto.percentageRelativeTo, mul_assoc]

theorem lpn_rel (v : LengthOrPercentageOrNumber) (b : ℚ) :
    (z.lpn v).relativeTo (z.k * b) = z.k * v.relativeTo b := by
  cases v <;> simp [lpn, LengthOrPercentageOrNumber.relativeTo, mul_assoc]

theorem la_auto (v : LengthOrAuto) (b : ℚ) : (z.la v).autoIs (z.k * b) = z.k * v.autoIs b := by
  cases v <;> simp [la, LengthOrAuto.autoIs]

theorem la_auto0 (v : LengthOrAuto) : (z.la v).autoIs 0 = z.k * v.autoIs 0 := by
  cases v <;> simp [la, LengthOrAuto.autoIs]

theorem lpa_nonAuto (v : LengthOrPercentageOrAuto) : (z.lpa v).nonAuto = v.nonAuto.map z.lp := by
  cases v <;> simp [lpa, lp, LengthOrPercentageOrAuto.nonAuto]

/-! ### Geometry -/

theorem vec_zero : z.vec Vec2.zero = Vec2.zero := by simp [vec, Vec2.zero]

theorem sides_add (a b : Sides Length) : z.sides a + z.sides b = z.sides (a + b) := by
  show Sides.mk _ _ _ _ = Sides.mk _ _ _ _
  simp only [sides]
  congr 1 <;> exact (mul_add ..).symm

theorem vec_add (a b : Vec2 Length) : z.vec a + z.vec b = z.vec (a + b) := by
  show Vec2.mk _ _ = Vec2.mk _ _
  simp only [vec]
  congr 1 <;> exact (mul_add ..).symm

theorem sides_inlineSum (a : Sides Length) : (z.sides a).inlineSum = z.k * a.inlineSum := (mul_add ..).symm

theorem sides_blockSum (a : Sides Length) : (z.sides a).blockSum = z.k * a.blockSum := (mul_add ..).symm

theorem rect_inflate (r : Rect Length) (s : Sides Length) : (z.rect r).inflate (z.sides s) = z.rect (r.inflate s) := by
  simp only [Rect.inflate, rect, vec, sides_inlineSum, sides_blockSum]
  simp only [sides]
  congr 2 <;> ring

theorem rect_addBlock (r : Rect Length) (b : ℚ) : (z.rect r).addBlock (z.k * b) = z.rect (r.addBlock b) := by
  simp only [Rect.addBlock, rect, vec]
  congr 2
  ring

theorem style_padding (s : Style) (b : ℚ) :
    (z.style s).padding.percentagesRelativeTo (z.k * b) = z.sides (s.padding.percentagesRelativeTo b) := by
  simp only [Sides.percentagesRelativeTo, Sides.map, sides, ← lp_rel]
  rfl

theorem style_border (s : Style) (b : ℚ) :
    (z.style s).borderWidth.percentagesRelativeTo (z.k * b) = z.sides (s.borderWidth.percentagesRelativeTo b) := by
  simp only [Sides.percentagesRelativeTo, Sides.map, sides, ← lp_rel]
  rfl

/-- sides that may be `auto` -/
def asides (s : Sides LengthOrAuto) : Sides LengthOrAuto := s.map z.la

theorem style_margin (s : Style) (b : ℚ) :
    (z.style s).margin.percentagesOrAutoRelativeTo (z.k * b) = z.asides (s.margin.percentagesOrAutoRelativeTo b) := by
  simp only [Sides.percentagesOrAutoRelativeTo, Sides.map, asides, ← lpa_rel]
  rfl

theorem asides_auto0 (s : Sides LengthOrAuto) : (z.asides s).autoIs 0 = z.sides (s.autoIs 0) := by
  simp only [Sides.autoIs, Sides.map, asides, sides, la_auto0]

theorem style_mode (s : Style) : (z.style s).writingMode = s.writingMode := rfl

theorem boxSize_inline (s : Style) : (z.style s).boxSize.inline = z.lpa s.boxSize.inline := rfl

theorem boxSize_block (s : Style) : (z.style s).boxSize.block = z.lpa s.boxSize.block := rfl

theorem relativeAdjust_la (a b : LengthOrAuto) : relativeAdjust (z.la a) (z.la b) = z.k * relativeAdjust a b := by
  cases a <;> cases b <;> simp [la, relativeAdjust]

theorem relative (s : Style) (i : ℚ) (b : LengthOrAuto) :
    relativeAdjustement (z.style s) (z.k * i) (z.la b) = z.vec (relativeAdjustement s i b) := by
  unfold relativeAdjustement
  have h : (z.style s).val .position = s.val .position := rfl
  rw [h]
  split
  · exact (z.vec_zero).symm
  · simp only [la_auto0, Sides.mapInlineAndBlockAxes, vec, ← relativeAdjust_la, ← lpa_rel]
    rfl

/-! ### Text -/

theorem seg_new (f : Font) : ShapedSegment.new (z.font f) = z.seg (.new f) := rfl

theorem seg_append (s : ShapedSegment) (c : Char) : (z.seg s).appendChar c = z.seg (s.appendChar c) := rfl

theorem seg_strip (s : ShapedSegment) : (z.seg s).stripSpace = z.seg s.stripSpace := by
  unfold ShapedSegment.stripSpace
  show (if s.glyphs.getLast? = some ' ' then _ else _) = _
  split <;> rfl

theorem seg_save (s : ShapedSegment) : (z.seg s).save = z.saved s.save := rfl

theorem seg_restore (s : ShapedSegment) (st : SegState) :
    (z.seg s).restore (z.saved st) = (s.restore st).map z.seg := by
  unfold ShapedSegment.restore
  simp only [seg, saved, bind, Except.bind, pure, Except.pure]
  cases truncateBytes st.glyphs s.glyphs <;> rfl

theorem seg_empty (s : ShapedSegment) : (z.seg s).empty = s.empty := rfl

variable {E E' : TextEnv}

theorem seg_width (h : z.Fonts E E') (s : ShapedSegment) : (z.seg s).getAdvanceWidth E' =
    (z.k * (s.getAdvanceWidth E).1, z.seg (s.getAdvanceWidth E).2) := by
  unfold ShapedSegment.getAdvanceWidth
  cases hw : s.advanceWidth with
  | none => simp [seg, hw, h.width]
  | some l => simp [seg, hw]

/-- the last place where the line can be broken -/
def brk (b : Option (SegState × Text)) : Option (SegState × Text) := b.map fun p => (z.saved p.1, p.2)

theorem overflowBreak_z (cs : Text) (s : ShapedSegment) (b : Option (SegState × Text)) :
    overflowBreak cs (z.seg s) (z.brk b) = (overflowBreak cs s b).map z.scan := by
  cases b with
  | none => rfl
  | some p =>
    simp only [brk, Option.map, overflowBreak, seg_restore, bind, Except.bind, pure, Except.pure]
    cases s.restore p.1 <;> rfl

theorem scanLine_z (h : z.Fonts E E') (a : ℚ) : ∀ (cs : Text) (s : ShapedSegment) (b : Option (SegState × Text)),
    scanLine E' (z.k * a) cs (z.seg s) (z.brk b) = (scanLine E a cs s b).map z.scan
  | [], s, b => by
    unfold scanLine
    simp only [z.seg_width h, gt_iff_lt, k_lt, overflowBreak_z]
    split <;> rfl
  | c :: cs, s, b => by
    unfold scanLine
    simp only [z.seg_width h, gt_iff_lt, k_lt, overflowBreak_z, seg_strip, seg_append, seg_save]
    split
    · split
      · rfl
      · split
        · rfl
        · split
          · exact scanLine_z h a cs ((s.getAdvanceWidth E).2.appendChar c) (some ((s.getAdvanceWidth E).2.save, cs))
          · exact scanLine_z h a cs ((s.getAdvanceWidth E).2.appendChar c)
              (some (((s.getAdvanceWidth E).2.appendChar c).save, cs))
    · exact scanLine_z h a cs _ b

theorem scanNowrap_z : ∀ (cs : Text) (s : ShapedSegment), scanNowrap cs (z.seg s) = z.scan (scanNowrap cs s)
  | [], s => rfl
  | c :: cs, s => by
    unfold scanNowrap
    split
    · rfl
    · exact scanNowrap_z cs (s.appendChar c)

theorem frags_append (a b : List Fragment) : z.frags (a ++ b) = z.frags a ++ z.frags b := by
  induction a with
  | nil => rfl
  | cons x a ih => simp only [List.cons_append, frags, ih]

theorem frags_map (f g : Fragment → Fragment) (h : ∀ x, g (z.frag x) = z.frag (f x)) (l : List Fragment) :
    (z.frags l).map g = z.frags (l.map f) := by
  induction l with
  | nil => rfl
  | cons x l ih => simp only [List.map_cons, frags, ih, h]

theorem frags_empty (l : List Fragment) : (z.frags l).isEmpty = l.isEmpty := by cases l <;> rfl

theorem translateBlock_z (b : ℚ) (f : Fragment) : (z.frag f).translateBlock (z.k * b) = z.frag (f.translateBlock b) := by
  cases f <;> simp only [frag, Fragment.translateBlock, rect_addBlock, geom]

theorem lineAscentDescent_z (s : Style) (f : Font) : lineAscentDescent (z.style s) (z.font f) =
    (z.k * (lineAscentDescent s f).1, z.k * (lineAscentDescent s f).2) := by
  have : LengthOrPercentageOrNumber.relativeTo ((z.style s).val .fontSize) ((z.style s).val .lineHeight) =
    z.k * LengthOrPercentageOrNumber.relativeTo (s.val .fontSize) (s.val .lineHeight) := z.lpn_rel _ _
  unfold lineAscentDescent
  rw [this]
  simp only [font]
  congr 1 <;> ring

theorem baselineShift_z (s : Style) (a d : ℚ) (l : NestLevel) :
    baselineShift (z.style s) (z.k * a) (z.k * d) (z.level l) = z.k * baselineShift s a d l := by
  have e : LengthOrPercentageOrNumber.relativeTo ((z.style s).val .fontSize) ((z.style s).val .lineHeight) =
    z.k * LengthOrPercentageOrNumber.relativeTo (s.val .fontSize) (s.val .lineHeight) := z.lpn_rel _ _
  have h : (z.style s).val .verticalAlign = z.align (s.val .verticalAlign) := rfl
  unfold baselineShift
  rw [e, h]
  cases (s.val .verticalAlign : VerticalAlign) <;> simp only [align, level] <;> ring

theorem linesFinishLine_z (ls : List Fragment) (p : ℚ) (t : NestLevel) (c : ContainingBlock) (i : ℚ) (a : TextAlign) :
    linesFinishLine (z.frags ls) (z.k * p) (z.level t) (z.cb c) (z.k * i) a =
      (z.frags (linesFinishLine ls p t c i a).1, z.k * (linesFinishLine ls p t c i a).2.1,
        z.level (linesFinishLine ls p t c i a).2.2) := by
  have e : (z.level t).maxAscent - (z.level t).blockAscent = z.k * (t.maxAscent - t.blockAscent) := by
    simp only [level]; ring
  unfold linesFinishLine
  simp only [e]
  have e2 : (z.level t).fragmentsSoFar = z.frags t.fragmentsSoFar := rfl
  rw [e2, z.frags_map _ _ (z.translateBlock_z (t.maxAscent - t.blockAscent)), frags_append]
  simp only [level, cb, frags, frag, rect, vec, mul_zero]
  refine Prod.ext ?_ (Prod.ext ?_ rfl)
  · simp only [List.append_cancel_left_eq, List.cons.injEq, and_true]
    congr 3 <;> ring
  · simp only
    ring

theorem PartialBox_fragment_z (p : PartialBox) (l : NestLevel) (i : ℚ) (b : Bool) :
    (z.part p).fragment (z.level l) (z.k * i) b = (z.frag (p.fragment l i b).1, z.k * (p.fragment l i b).2) := by
  unfold PartialBox.fragment
  by_cases hb : (p.lastBoxTreeFragment && !b) = true
  · have hb' : ((z.part p).lastBoxTreeFragment && !b) = true := hb
    simp only [if_pos hb, if_pos hb']
    simp only [part]
    refine Prod.ext ?_ ?_
    · simp only [frag, geom, rect, vec, level, margins, CollapsedBlockMargins.zero, margin, CollapsedMargin.zero, mul_zero]
      congr 4 <;> ring
    · simp only [sides]; ring
  · have hb' : ¬ ((z.part p).lastBoxTreeFragment && !b) = true := hb
    simp only [if_neg hb, if_neg hb']
    simp only [part]
    refine Prod.ext ?_ rfl
    simp only [frag, geom, rect, vec, level, margins, CollapsedBlockMargins.zero, margin, CollapsedMargin.zero, mul_zero,
      sides]
    congr 4 <;> ring

theorem finishLayout_z (p : PartialBox) (l : NestLevel) (i : ℚ) (b : Bool) :
    (z.part p).finishLayout (z.level l) (z.k * i) b = (z.part (p.finishLayout l i b).1,
      z.level (p.finishLayout l i b).2.1, z.k * (p.finishLayout l i b).2.2) := by
  unfold PartialBox.finishLayout
  simp only [PartialBox_fragment_z]
  simp only [part, level, k_max, frags_append, frags]

theorem continue_z (p : PartialBox) : (z.part p).continueOnNextLine = z.part p.continueOnNextLine := by
  simp only [PartialBox.continueOnNextLine, part, vec, sides, mul_zero]

theorem finishOpenBoxes_z : ∀ (ps : List PartialBox) (l : NestLevel) (i : ℚ),
    finishOpenBoxes (z.level l) (ps.map z.part) (z.k * i) = (z.level (finishOpenBoxes l ps i).1,
      (finishOpenBoxes l ps i).2.1.map z.part, z.k * (finishOpenBoxes l ps i).2.2)
  | [], l, i => by simp only [List.map_nil, finishOpenBoxes, level, mul_zero]
  | p :: ps, l, i => by
    have e : (z.part (p.finishLayout l i true).1.continueOnNextLine).parent =
      z.level (p.finishLayout l i true).1.continueOnNextLine.parent := rfl
    simp only [List.map_cons, finishOpenBoxes, finishLayout_z, continue_z, e,
      finishOpenBoxes_z ps (p.finishLayout l i true).1.continueOnNextLine.parent]
    simp only [level, part, mul_zero]

theorem topLevel_z : ∀ (ps : List PartialBox) (l : NestLevel), topLevel (z.level l) (ps.map z.part) = z.level (topLevel l ps)
  | [], _ => rfl
  | p :: ps, _ => topLevel_z ps p.parent

theorem setTopLevel_z (t : NestLevel) : ∀ (ps : List PartialBox) (l : NestLevel),
    setTopLevel (z.level l) (z.level t) (ps.map z.part) = (z.level (setTopLevel l t ps).1, (setTopLevel l t ps).2.map z.part)
  | [], _ => rfl
  | p :: ps, l => by
    have e : (z.part p).parent = z.level p.parent := rfl
    simp only [List.map_cons, setTopLevel, e, setTopLevel_z t ps p.parent]
    rfl

theorem finishLine_z (s : IfcState) : (z.state s).finishLine = z.state s.finishLine := by
  unfold IfcState.finishLine
  simp only [state, finishOpenBoxes_z, topLevel_z, linesFinishLine_z, setTopLevel_z, mul_zero]

theorem pushText_z (h : z.Fonts E E') (s : IfcState) (st : Style) (f : Font) (g : ShapedSegment) (n : Bool) :
    (z.state s).pushText E' (z.style st) (z.font f) (z.seg g) n =
      (z.state (s.pushText E st f g n).1, z.seg (s.pushText E st f g n).2) := by
  unfold IfcState.pushText
  simp only [z.seg_width h, lineAscentDescent_z, seg_empty, seg_new]
  have e3 : ∀ a b : ℚ, z.k * a - z.k * b = z.k * (a - b) := by intros; ring
  have e4 : ∀ a b : ℚ, z.k * a + z.k * b = z.k * (a + b) := by intros; ring
  cases hh : (!(g.getAdvanceWidth E).2.empty) <;> cases n <;>
    simp [state, level, k_max, frags_append, frags, frag, rect, vec, e3, e4]

theorem wrapLoop_z (h : z.Fonts E E') (st : Style) (f : Font) : ∀ (n : Nat) (s : IfcState) (cs : Text) (g : ShapedSegment)
    (b : Option (SegState × Text)), wrapLoop E' (z.style st) (z.font f) n (z.state s) cs (z.seg g) (z.brk b) =
      (wrapLoop E st f n s cs g b).map z.state
  | 0, _, _, _, _ => rfl
  | n + 1, s, cs, g, b => by
    have e : (z.state s).cb.inlineSize - (z.state s).inlinePosition = z.k * (s.cb.inlineSize - s.inlinePosition) := by
      simp only [state, cb]; ring
    simp only [wrapLoop, e, z.scanLine_z h, bind, Except.bind, pure, Except.pure]
    cases scanLine E (s.cb.inlineSize - s.inlinePosition) cs g b with
    | error e => rfl
    | ok r =>
      simp only [Except.map, scan, z.pushText_z h, finishLine_z]
      split
      · exact wrapLoop_z h st f n _ _ _ none
      · rfl

theorem layoutNowrap_z (h : z.Fonts E E') (st : Style) (f : Font) : ∀ (n : Nat) (s : IfcState) (cs : Text),
    layoutNowrap E' (z.style st) (z.font f) n (z.state s) cs = (layoutNowrap E st f n s cs).map z.state
  | 0, _, _ => rfl
  | n + 1, s, cs => by
    simp only [layoutNowrap, seg_new, scanNowrap_z, scan, z.pushText_z h, finishLine_z]
    split
    · exact layoutNowrap_z h st f n _ _
    · rfl

theorem layoutTextRun_z (h : z.Fonts E E') (st : Style) (t : Text) (f : Font) (s : IfcState) :
    layoutTextRun E' (z.style st) t (z.font f) (z.state s) = (layoutTextRun E st t f s).map z.state := by
  have e : (z.style st).val .whiteSpace = st.val .whiteSpace := rfl
  unfold layoutTextRun layoutWrap
  rw [e]
  split
  · exact z.layoutNowrap_z h st f _ _ _
  · exact z.layoutNowrap_z h st f _ _ _
  · exact z.wrapLoop_z h st f _ _ _ (.new f) (some ((ShapedSegment.new f).save, t))

theorem startBox_z (h : z.Fonts E E') (s : IfcState) (st : Style) (first last : Bool) (cs : List InlineLevelBox) :
    (z.state s).startBox E' (z.style st) first last (z.inlines cs) = z.state (s.startBox E st first last cs) := by
  have e1 : (z.state s).cb.inlineSize = z.k * s.cb.inlineSize := rfl
  have e2 : (z.state s).cb.blockSize = z.la s.cb.blockSize := rfl
  have e3 : (z.state s).current = z.level s.current := rfl
  have e4 : (z.font (E.font st)).ascent = z.k * (E.font st).ascent := rfl
  have e5 : (z.font (E.font st)).descent = z.k * (E.font st).descent := rfl
  unfold IfcState.startBox
  simp only [h.font, e1, e2, e3, e4, e5, style_padding, style_border, style_margin, asides_auto0, relative, baselineShift_z]
  have e7 : (z.font (E.font st)).ex = z.k * (E.font st).ex := by simp only [Font.ex, font]; ring
  have e8 : ∀ a b : Vec2 Length, a + b = ⟨a.inline + b.inline, a.block + b.block⟩ := fun _ _ => rfl
  cases first <;> simp only [if_true, if_false, Bool.false_eq_true, e7] <;>
    simp only [state, part, level, vec, sides, frags, e8, mul_zero, mul_add, mul_sub, List.map_cons]

theorem absoluteBoxOffsets_z (i : ℚ) (a b : LengthOrPercentageOrAuto) :
    absoluteBoxOffsets (z.k * i) (z.lpa a) (z.lpa b) = z.offsets (absoluteBoxOffsets i a b) := by
  cases a <;> cases b <;> rfl

theorem layoutAbsBox_z (st : Style) (c : Bfc) (v : Vec2 Length) (r : Nat) :
    layoutAbsBox (z.style st) (z.bfc c) (z.vec v) r = z.abs (layoutAbsBox st c v r) := by
  unfold layoutAbsBox abs
  simp only [vec, ← absoluteBoxOffsets_z]
  rfl

theorem absStartCorner_z (s : IfcState) (st : Style) :
    (z.state s).absStartCorner (z.style st) = (s.absStartCorner st).map z.vec := by
  have e : (z.style st).specifiedDisplay = st.specifiedDisplay := rfl
  unfold IfcState.absStartCorner
  rw [e]
  cases st.specifiedDisplay with
  | generatingBox o i => cases o <;> simp [Except.map, vec, state]
  | contents => rfl
  | none => rfl

theorem endBox_z (s : IfcState) (p : PartialBox) (ps : List PartialBox) :
    (z.state s).endBox (z.part p) (ps.map z.part) = z.state (s.endBox p ps) := by
  unfold IfcState.endBox
  simp only [state, finishLayout_z]
  rfl

/-- a state with what is to be laid out later -/
def pair (p : IfcState × List AbsFragment) : IfcState × List AbsFragment := (z.state p.1, p.2.map z.abs)

theorem ifcLoop_z (h : z.Fonts E E') (r : Nat) : ∀ (n : Nat) (s : IfcState) (as : List AbsFragment),
    ifcLoop E' r n (z.state s) (as.map z.abs) = (ifcLoop E r n s as).map z.pair
  | 0, _, _ => rfl
  | n + 1, s, as => by
    obtain ⟨cb0, ls, np, ta, ip, stk, cur⟩ := s
    obtain ⟨rem, fr, a1, a2, a3, a4, a5, a6, a7⟩ := cur
    cases rem with
    | cons b bs =>
      have ih := ifcLoop_z h r n
      let s : IfcState := ⟨cb0, ls, np, ta, ip, stk, ⟨bs, fr, a1, a2, a3, a4, a5, a6, a7⟩⟩
      cases b with
      | inlineBox st first last cs =>
        have := ih (s.startBox E st first last cs) as
        rw [← z.startBox_z h] at this
        exact this
      | textRun st t f =>
        have e := z.layoutTextRun_z h st t f s
        show (layoutTextRun E' (z.style st) t (z.font f) (z.state s)).bind _ = _
        rw [e]
        show _ = ((layoutTextRun E st t f s).bind fun s => ifcLoop E r n s as).map z.pair
        cases layoutTextRun E st t f s with
        | error e => rfl
        | ok s' => exact ih s' as
      | outOfFlowAbsolutelyPositionedBox st c =>
        have e := z.absStartCorner_z s st
        show ((z.state s).absStartCorner (z.style st)).bind _ = _
        rw [e]
        show _ = ((s.absStartCorner st).bind fun v => ifcLoop E r n s (as ++ [layoutAbsBox st c v r])).map z.pair
        cases s.absStartCorner st with
        | error e => rfl
        | ok v =>
          have := ih s (as ++ [layoutAbsBox st c v r])
          rw [List.map_append, List.map_cons, List.map_nil, ← layoutAbsBox_z] at this
          exact this
      | outOfFlowFloatBox st c => exact ih s as
    | nil =>
      cases stk with
      | nil =>
        show Except.ok ((z.state _).finishLine, _) = Except.ok (z.state (IfcState.finishLine _), _)
        rw [← finishLine_z]
      | cons p ps =>
        have ih := ifcLoop_z h r n
        have := ih (IfcState.endBox ⟨cb0, ls, np, ta, ip, p :: ps, ⟨[], fr, a1, a2, a3, a4, a5, a6, a7⟩⟩ p ps) as
        rw [← endBox_z] at this
        exact this

mutual

theorem steps_z : ∀ b : InlineLevelBox, (z.inline b).steps = b.steps
  | .inlineBox _ _ _ cs => by simp only [inline, InlineLevelBox.steps, inlineSteps_z cs]
  | .textRun .. => rfl
  | .outOfFlowAbsolutelyPositionedBox .. => rfl
  | .outOfFlowFloatBox .. => rfl

theorem inlineSteps_z : ∀ bs : List InlineLevelBox, inlineSteps (z.inlines bs) = inlineSteps bs
  | [] => rfl
  | b :: bs => by simp only [inlines, inlineSteps, steps_z b, inlineSteps_z bs]

end

/-- laid out children with what is to be laid out later -/
def fpair (p : FlowChildren × List AbsFragment) : FlowChildren × List AbsFragment := (z.flow p.1, p.2.map z.abs)

theorem ifcStart_z (h : z.Fonts E E') (st : Style) (bs : List InlineLevelBox) (c : ContainingBlock) :
    IfcState.start E' (z.style st) (z.inlines bs) (z.cb c) = z.state (.start E st bs c) := by
  have e7 : (z.font (E.font st)).ex = z.k * (E.font st).ex := by simp only [Font.ex, font]; ring
  unfold IfcState.start
  simp only [h.font, state, level, frags, mul_zero, List.map_nil, e7]
  rfl

theorem ifcLayout_z (h : z.Fonts E E') (st : Style) (bs : List InlineLevelBox) (c : ContainingBlock) (r : Nat)
    (as : List AbsFragment) : ifcLayout E' (z.style st) (z.inlines bs) (z.cb c) r (as.map z.abs) =
      (ifcLayout E st bs c r as).map z.fpair := by
  unfold ifcLayout
  rw [inlineSteps_z, z.ifcStart_z h, z.ifcLoop_z h]
  simp only [bind, Except.bind, pure, Except.pure]
  cases ifcLoop E r (inlineSteps bs + 1) (IfcState.start E st bs c) as with
  | error e => rfl
  | ok p => simp [Except.map, pair, fpair, flow, margins, margin, CollapsedBlockMargins.zero, CollapsedMargin.zero, state]

/-! ### Blocks -/

/-- a state of block placement -/
def place (s : PlacementState) : PlacementState := ⟨s.collapses, z.margin s.startMargin, z.margin s.currentMargin, z.k * s.position⟩

theorem adjoin_z (a b : CollapsedMargin) : (z.margin a).adjoin (z.margin b) = z.margin (a.adjoin b) := by
  simp only [CollapsedMargin.adjoin, margin, k_max, k_min]

theorem solve_z (a : CollapsedMargin) : (z.margin a).solve = z.k * a.solve := (mul_add ..).symm

theorem margin_zero : z.margin .zero = .zero := by simp [margin, CollapsedMargin.zero]

theorem margin_new (m : ℚ) : CollapsedMargin.new (z.k * m) = z.margin (.new m) := by
  simp only [CollapsedMargin.new, margin, k_max0, k_min0]

/-- a fragment and a state -/
def placed (p : Fragment × PlacementState) : Fragment × PlacementState := (z.frag p.1, z.place p.2)

theorem placeFragment_z (s : PlacementState) (f : Fragment) :
    placeFragment (z.place s) (z.frag f) = (placeFragment s f).map z.placed := by
  have e4 : ∀ a b : ℚ, z.k * a + z.k * b = z.k * (a + b) := by intros; ring
  cases f with
  | box st g m cs =>
    simp only [placeFragment, frag, place, margins, solve_z, adjoin_z, ne_eq, k_eq_zero, geom, rect_addBlock, e4,
      sides_blockSum]
    have e5 : (z.rect g.contentRect).size.block = z.k * g.contentRect.size.block := rfl
    split
    · split
      · rfl
      · split
        · rfl
        · simp only [Except.map, placed, frag, place, geom, e5, e4, margins]
    · split <;> simp only [Except.map, placed, frag, place, geom, e5, e4, margins]
  | anonymous r cs mode =>
    have e5 : (z.rect r).size.block = z.k * r.size.block := rfl
    simp only [placeFragment, frag, frags_empty, e5, ne_eq, k_eq_zero]
    split
    · rfl
    · split
      · rfl
      · simp only [Except.map, placed, frag, place, rect_addBlock]
  | text => rfl

/-- fragments and a state -/
def placedAll (p : List Fragment × PlacementState) : List Fragment × PlacementState := (z.frags p.1, z.place p.2)

theorem placeAll_z : ∀ (fs : List Fragment) (s : PlacementState),
    placeAll (z.place s) (z.frags fs) = (placeAll s fs).map z.placedAll
  | [], _ => rfl
  | f :: fs, s => by
    simp only [frags, placeAll, placeFragment_z, bind, Except.bind, pure, Except.pure]
    cases placeFragment s f with
    | error e => rfl
    | ok p =>
      simp only [Except.map, placed, placeAll_z fs]
      cases placeAll p.2 fs <;> rfl

/-- the result of laying out a block -/
def bpair (p : Fragment × List AbsFragment) : Fragment × List AbsFragment := (z.frag p.1, p.2.map z.abs)

/-- layout of blocks commutes with magnification -/
def BoxOk (L L' : BoxLayout) : Prop := ∀ b c r as fl,
  L' (z.block b) (z.cb c) r (as.map z.abs) fl = (L b c r as fl).map z.bpair

/-- layout of absolutely positioned boxes commutes with magnification -/
def AbsOk (L L' : AbsLayout) : Prop := ∀ a c, L' (z.abs a) (z.dcb c) = (L a c).map z.frag

variable {L L' : BoxLayout} {A A' : AbsLayout}

theorem layoutEach_z (hL : z.BoxOk L L') (c : ContainingBlock) : ∀ (bs : List BlockLevelBox) (r : Nat) (as : List AbsFragment),
    layoutEach L' (z.cb c) r (z.blocks bs) (as.map z.abs) =
      (layoutEach L c r bs as).map fun p => (z.frags p.1, p.2.map z.abs)
  | [], _, _ => rfl
  | b :: bs, r, as => by
    simp only [blocks, layoutEach, hL b, bind, Except.bind, pure, Except.pure]
    cases L b c r as false with
    | error e => rfl
    | ok p =>
      simp only [Except.map, bpair, layoutEach_z hL c bs]
      cases layoutEach L c (r + 1) bs p.2 <;> rfl

theorem layoutAndPlaceEach_z (hL : z.BoxOk L L') (c : ContainingBlock) :
    ∀ (bs : List BlockLevelBox) (r : Nat) (as : List AbsFragment) (s : PlacementState),
    layoutAndPlaceEach L' (z.cb c) r (z.blocks bs) (as.map z.abs) (z.place s) =
      (layoutAndPlaceEach L c r bs as s).map fun p => (z.frags p.1, p.2.1.map z.abs, z.place p.2.2)
  | [], _, _, _ => rfl
  | b :: bs, r, as, s => by
    simp only [blocks, layoutAndPlaceEach, hL b, bind, Except.bind, pure, Except.pure]
    cases L b c r as true with
    | error e => rfl
    | ok p =>
      simp only [Except.map, bpair, placeFragment_z]
      cases placeFragment s p.1 with
      | error e => rfl
      | ok q =>
        simp only [Except.map, placed, layoutAndPlaceEach_z hL c bs]
        cases layoutAndPlaceEach L c (r + 1) bs p.2 q.2 <;> rfl

theorem moveStatic_z (o : AbsOffsets) (d : ℚ) : (z.offsets o).moveStatic (z.k * d) = z.offsets (o.moveStatic d) := by
  cases o <;> simp only [offsets, AbsOffsets.moveStatic, mul_add]

theorem frags_get (l : List Fragment) (i : Nat) : (z.frags l)[i]? = l[i]?.map z.frag := by
  induction l generalizing i with
  | nil => simp [frags]
  | cons x l ih => cases i <;> simp [frags, ih]

theorem adjustStaticPosition_z (fs : List Fragment) (r : Nat) (a : AbsFragment) :
    adjustStaticPosition (z.frags fs) r (z.abs a) = (adjustStaticPosition fs r a).map z.abs := by
  have e : (z.abs a).treeRank = a.treeRank := rfl
  unfold adjustStaticPosition
  rw [frags_get, e]
  cases h : fs[a.treeRank]? with
  | none => rfl
  | some f =>
    cases f with
    | box st g m cs => simp only [Option.map, frag, Except.map, abs, ← moveStatic_z]; rfl
    | anonymous r cs m => simp only [Option.map, frag, Except.map, abs, ← moveStatic_z]; rfl
    | text => rfl

theorem adjustStaticPositions_z (fs : List Fragment) (r : Nat) : ∀ as : List AbsFragment,
    adjustStaticPositions (z.frags fs) r (as.map z.abs) = (adjustStaticPositions fs r as).map (·.map z.abs)
  | [] => rfl
  | a :: as => by
    simp only [List.map_cons, adjustStaticPositions, adjustStaticPosition_z, bind, Except.bind, pure, Except.pure]
    cases adjustStaticPosition fs r a with
    | error e => rfl
    | ok b =>
      simp only [Except.map, adjustStaticPositions_z fs r as]
      cases adjustStaticPositions fs r as <;> rfl

theorem start_z (b : Bool) : PlacementState.start b = z.place (.start b) := by
  simp [PlacementState.start, place, margin_zero]

theorem layoutBlockLevelChildren_z (hL : z.BoxOk L L') (bs : List BlockLevelBox) (c : ContainingBlock) (r : Nat)
    (as : List AbsFragment) (fl co : Bool) :
    layoutBlockLevelChildren L' (z.blocks bs) (z.cb c) r (as.map z.abs) fl co =
      (layoutBlockLevelChildren L bs c r as fl co).map z.fpair := by
  unfold layoutBlockLevelChildren
  have e : (if fl = true then layoutAndPlaceEach L' (z.cb c) 0 (z.blocks bs) (as.map z.abs) (PlacementState.start co)
      else do
        let (fragments, abs) ← layoutEach L' (z.cb c) 0 (z.blocks bs) (as.map z.abs)
        let (fragments, st) ← placeAll (PlacementState.start co) fragments
        return (fragments, abs, st)) =
    (if fl = true then layoutAndPlaceEach L c 0 bs as (PlacementState.start co)
      else do
        let (fragments, abs) ← layoutEach L c 0 bs as
        let (fragments, st) ← placeAll (PlacementState.start co) fragments
        return (fragments, abs, st)).map fun p => (z.frags p.1, p.2.1.map z.abs, z.place p.2.2) := by
    split
    · have := z.layoutAndPlaceEach_z hL c bs 0 as (.start co)
      rw [← start_z] at this
      exact this
    · rw [z.layoutEach_z hL]
      cases layoutEach L c 0 bs as with
      | error e => rfl
      | ok p =>
        have := z.placeAll_z p.1 (.start co)
        rw [← start_z] at this
        simp only [Except.map, bind, Except.bind, pure, Except.pure, this]
        cases placeAll (PlacementState.start co) p.1 <;> rfl
  simp only [e, List.length_map]
  generalize (if fl = true then layoutAndPlaceEach L c 0 bs as (PlacementState.start co)
      else do
        let (fragments, abs) ← layoutEach L c 0 bs as
        let (fragments, st) ← placeAll (PlacementState.start co) fragments
        return (fragments, abs, st)) = x
  cases x with
  | error e => rfl
  | ok p =>
    simp only [Except.map, bind, Except.bind, pure, Except.pure, ← List.map_drop, adjustStaticPositions_z]
    cases adjustStaticPositions p.1 r (p.2.1.drop as.length) with
    | error e => rfl
    | ok q => simp [fpair, flow, place, margins, List.map_take]

theorem containerLayout_z (h : z.Fonts E E') (hL : z.BoxOk L L') (b : BlockContainer) (c : ContainingBlock) (r : Nat)
    (as : List AbsFragment) (fl co : Bool) :
    containerLayout E' L' (z.container b) (z.cb c) r (as.map z.abs) fl co =
      (containerLayout E L b c r as fl co).map z.fpair := by
  cases b with
  | blockLevelBoxes bs =>
    simp only [container, containerLayout]
    exact z.layoutBlockLevelChildren_z hL bs c r as fl co
  | inlineFormattingContext st bs =>
    simp only [container, containerLayout]
    exact z.ifcLayout_z h st bs c r as

theorem bfcLayout_z (h : z.Fonts E E') (hL : z.BoxOk L L') (b : Bfc) (c : ContainingBlock) (r : Nat)
    (as : List AbsFragment) : bfcLayout E' L' (z.bfc b) (z.cb c) r (as.map z.abs) = (bfcLayout E L b c r as).map z.fpair := by
  obtain ⟨b, fl⟩ := b
  simp only [bfcLayout, bfc, Bfc.contents, Bfc.containsFloats, z.containerLayout_z h hL, bind, Except.bind, pure, Except.pure]
  cases containerLayout E L b c r as fl false with
  | error e => rfl
  | ok p => simp only [Except.map, fpair, flow, margins, solve_z, margin_zero, mul_add]

theorem layoutAbsEach_z (hA : z.AbsOk A A') (c : DefiniteContainingBlock) : ∀ as : List AbsFragment,
    layoutAbsEach A' (z.dcb c) (as.map z.abs) = (layoutAbsEach A c as).map z.frags
  | [] => rfl
  | a :: as => by
    simp only [List.map_cons, layoutAbsEach, hA a, bind, Except.bind, pure, Except.pure]
    cases A a c with
    | error e => rfl
    | ok b =>
      simp only [Except.map, layoutAbsEach_z hA c as]
      cases layoutAbsEach A c as <;> rfl

theorem inPositioned_z (hA : z.AbsOk A A') (as : List AbsFragment) (fs : List Fragment) (v : Vec2 Length) (p : Sides Length)
    (m : Mode) : inPositionedContainingBlock A' (as.map z.abs) (z.frags fs) (z.vec v) (z.sides p) m =
      (inPositionedContainingBlock A as fs v p m).map z.frags := by
  unfold inPositionedContainingBlock
  have e : (as.map z.abs).isEmpty = as.isEmpty := by cases as <;> rfl
  have e2 : (Rect.mk Vec2.zero (z.vec v)).inflate (z.sides p) = z.rect ((Rect.mk Vec2.zero v).inflate p) := by
    rw [← rect_inflate]
    simp only [rect, vec_zero]
  have e3 : (⟨(z.rect ((Rect.mk Vec2.zero v).inflate p)).size, m⟩ : DefiniteContainingBlock) =
    z.dcb ⟨((Rect.mk Vec2.zero v).inflate p).size, m⟩ := rfl
  rw [e]
  split
  · rfl
  · simp only [e2, e3, z.layoutAbsEach_z hA, bind, Except.bind, pure, Except.pure]
    cases layoutAbsEach A ⟨((Rect.mk Vec2.zero v).inflate p).size, m⟩ as with
    | error e => rfl
    | ok cs => simp only [Except.map, frags_append, frags, frag]

theorem solveInlineMargins_z (m : Sides LengthOrAuto) (i : ℚ) :
    solveInlineMargins (z.asides m) (z.k * i) = z.asides (solveInlineMargins m i) := by
  obtain ⟨a, b, c, d⟩ := m
  cases a <;> cases b <;> simp [solveInlineMargins, asides, Sides.map, la, mul_div_assoc]

/-- the sizes of a block in the flow -/
def sizes (s : InFlowSizes) : InFlowSizes :=
  ⟨z.sides s.padding, z.sides s.border, z.sides s.margin, z.k * s.inlineSize, z.la s.blockSize, s.startCollapses, s.endCollapses⟩

theorem la_isAuto (v : LengthOrAuto) : (z.la v == .auto) = (v == .auto) := by
  cases v <;> rfl

theorem k_beq (a : ℚ) : (z.k * a == 0) = (a == 0) := by
  rw [Bool.eq_iff_iff]
  simp [z.kne]

theorem inFlowSizes_z (c : ContainingBlock) (st : Style) (kind : BlockLevelKind) :
    inFlowSizes (z.cb c) (z.style st) kind = z.sizes (inFlowSizes c st kind) := by
  have e1 : (z.cb c).inlineSize = z.k * c.inlineSize := rfl
  have e2 : (z.cb c).blockSize = z.la c.blockSize := rfl
  have e3 : ∀ s : Sides Length, (z.sides s).blockStart = z.k * s.blockStart := fun _ => rfl
  have e4 : ∀ s : Sides Length, (z.sides s).blockEnd = z.k * s.blockEnd := fun _ => rfl
  unfold inFlowSizes sizes
  simp only [e1, e2, style_padding, style_border, style_margin, sides_add, boxSize_inline, boxSize_block, lpa_rel,
    sides_inlineSum, e3, e4, k_beq]
  generalize st.boxSize.inline.percentageRelativeTo c.inlineSize = w
  generalize st.boxSize.block = h
  generalize c.blockSize = hb
  cases w <;> cases h <;> cases hb <;> simp only [la, lpa, LengthOrAuto.map, asides_auto0, sides_inlineSum, ← mul_sub,
    solveInlineMargins_z, LengthOrAuto.autoIs, mul_assoc] <;> rfl

theorem collapseWithChildren_z (s : InFlowSizes) (fc : FlowChildren) : collapseWithChildren (z.sizes s) (z.flow fc) =
    (z.margins (collapseWithChildren s fc).1, z.k * (collapseWithChildren s fc).2) := by
  obtain ⟨p, b, m, i, bs, sc, ec⟩ := s
  obtain ⟨fs, sz, ⟨th, ms, me⟩⟩ := fc
  cases sc <;> cases ec <;> cases th <;>
    simp [collapseWithChildren, sizes, flow, margins, CollapsedBlockMargins.fromMargin, sides, margin_new, adjoin_z, solve_z,
      mul_add] <;> first
      | rw [← solve_z, margin_zero]
      | rw [← adjoin_z, margin_zero]

theorem layoutInFlow_z (hA : z.AbsOk A A') (c : ContainingBlock) (as : List AbsFragment) (st : Style) (kind : BlockLevelKind)
    {l l' : ContainingBlock → List AbsFragment → Bool → Except Panic (FlowChildren × List AbsFragment)}
    (hl : ∀ c as b, l' (z.cb c) (as.map z.abs) b = (l c as b).map z.fpair) :
    layoutInFlow A' (z.cb c) (as.map z.abs) (z.style st) kind l' = (layoutInFlow A c as st kind l).map z.bpair := by
  unfold layoutInFlow
  have e1 : (z.style st).writingMode = st.writingMode := rfl
  have e2 : (z.style st).val .position = st.val .position := rfl
  have e3 : (z.cb c).mode = c.mode := rfl
  simp only [inFlowSizes_z, e1, e2, e3]
  generalize inFlowSizes c st kind = s
  have e4 : (⟨(z.sizes s).inlineSize, (z.sizes s).blockSize, st.writingMode⟩ : ContainingBlock) =
    z.cb ⟨s.inlineSize, s.blockSize, st.writingMode⟩ := rfl
  have e5 : (if Position.isRelativelyPositioned (st.val .position) = true then [] else as.map z.abs) =
    (if Position.isRelativelyPositioned (st.val .position) = true then [] else as).map z.abs := by split <;> rfl
  have e6 : (z.sizes s).startCollapses = s.startCollapses := rfl
  split
  · rfl
  · simp only [e4, e5, e6, hl, bind, Except.bind, pure, Except.pure]
    cases l ⟨s.inlineSize, s.blockSize, st.writingMode⟩
      (if Position.isRelativelyPositioned (st.val .position) = true then [] else as) s.startCollapses with
    | error e => rfl
    | ok p =>
      obtain ⟨fc, out⟩ := p
      have h1 : (z.sizes s).inlineSize = z.k * s.inlineSize := rfl
      have h2 : (z.sizes s).blockSize = z.la s.blockSize := rfl
      have h3 : (z.sizes s).pb = z.sides s.pb := z.sides_add _ _
      have h4 : (z.sizes s).margin = z.sides s.margin := rfl
      have h5 : (z.sizes s).padding = z.sides s.padding := rfl
      have h6 : (z.sizes s).border = z.sides s.border := rfl
      simp only [Except.map, fpair, collapseWithChildren_z, h1, h2, h3, h4, h5, h6, relative, la_auto]
      generalize collapseWithChildren s fc = cw
      obtain ⟨m, bs⟩ := cw
      generalize relativeAdjustement st s.inlineSize s.blockSize = rel
      have h7 : (z.flow fc).fragments = z.frags fc.fragments := rfl
      have h8 : (⟨z.k * s.inlineSize, z.k * s.blockSize.autoIs bs⟩ : Vec2 Length) =
        z.vec ⟨s.inlineSize, s.blockSize.autoIs bs⟩ := rfl
      simp only [h7, h8]
      have key : ∀ cs : List Fragment, z.bpair (.box st ⟨⟨⟨s.pb.inlineStart + rel.inline + s.margin.inlineStart,
          s.pb.blockStart + rel.block⟩, ⟨s.inlineSize, s.blockSize.autoIs bs⟩⟩, s.padding, s.border, s.margin⟩ m cs,
          if Position.isRelativelyPositioned (st.val .position) = true then as else out) =
        (.box (z.style st) ⟨⟨⟨(z.sides s.pb).inlineStart + (z.vec rel).inline + (z.sides s.margin).inlineStart,
          (z.sides s.pb).blockStart + (z.vec rel).block⟩, z.vec ⟨s.inlineSize, s.blockSize.autoIs bs⟩⟩,
          z.sides s.padding, z.sides s.border, z.sides s.margin⟩ (z.margins m) (z.frags cs),
          if Position.isRelativelyPositioned (st.val .position) = true then as.map z.abs else out.map z.abs) := by
        intro cs
        refine Prod.ext ?_ ?_
        · simp only [bpair, frag, geom, rect, vec, sides, mul_add]
        · simp only [bpair]
          split <;> rfl
      by_cases hr : Position.isRelativelyPositioned (st.val .position) = true
      · simp only [hr, if_true] at key ⊢
        rw [z.inPositioned_z hA]
        cases inPositionedContainingBlock A out fc.fragments ⟨s.inlineSize, s.blockSize.autoIs bs⟩ s.padding
          st.writingMode with
        | error e => rfl
        | ok cs =>
          show Except.ok _ = Except.ok _
          rw [key]
      · simp only [if_neg hr] at key ⊢
        show Except.ok _ = Except.ok _
        rw [key]

theorem boxLayoutWith_z (h : z.Fonts E E') (hL : z.BoxOk L L') (hA : z.AbsOk A A') :
    z.BoxOk (boxLayoutWith E L A) (boxLayoutWith E' L' A') := by
  intro b c r as fl
  cases b with
  | sameFormattingContextBlock st cs =>
    exact z.layoutInFlow_z hA c as st _
      (l := fun cb nested collapsible => containerLayout E L cs cb r nested fl collapsible)
      (l' := fun cb nested collapsible => containerLayout E' L' (z.container cs) cb r nested fl collapsible)
      fun c as b => z.containerLayout_z h hL cs c r as fl b
  | independent st cs =>
    exact z.layoutInFlow_z hA c as st _ (l := fun cb nested _ => bfcLayout E L cs cb r nested)
      (l' := fun cb nested _ => bfcLayout E' L' (z.bfc cs) cb r nested) fun c as _ => z.bfcLayout_z h hL cs c r as
  | outOfFlowAbsolutelyPositionedBox st cs =>
    simp only [block, boxLayoutWith, Except.map, bpair, List.map_append, List.map_cons, List.map_nil, ← layoutAbsBox_z,
      vec_zero]
    simp only [Fragment.noOp, frag, frags, rect, Rect.zero, vec_zero]
    rfl
  | outOfFlowFloatBox st cs =>
    simp only [block, boxLayoutWith, Except.map, bpair]
    simp only [Fragment.noOp, frag, frags, rect, Rect.zero, vec_zero]
    rfl

/-- an anchor -/
def anchor : Anchor → Anchor
  | .start v => .start (z.k * v)
  | .«end» v => .«end» (z.k * v)

theorem solveAxis_z (c pb : ℚ) (ms me : LengthOrAuto) (f : ℚ → ℚ × ℚ) (hf : ∀ m, f (z.k * m) = (z.k * (f m).1, z.k * (f m).2))
    (o : AbsOffsets) (s : LengthOrPercentageOrAuto) :
    solveAxis (z.k * c) (z.k * pb) (z.la ms) (z.la me) f (z.offsets o) (z.lpa s) =
      (z.anchor (solveAxis c pb ms me f o s).1, z.la (solveAxis c pb ms me f o s).2.1,
        z.k * (solveAxis c pb ms me f o s).2.2.1, z.k * (solveAxis c pb ms me f o s).2.2.2) := by
  unfold solveAxis
  cases o with
  | staticStart v => simp only [offsets, lpa_rel, la_auto0, anchor]
  | start v => simp only [offsets, lpa_rel, lp_rel, la_auto0, anchor]
  | «end» v => simp only [offsets, lpa_rel, lp_rel, la_auto0, anchor]
  | both a b =>
    simp only [offsets, lpa_rel, lp_rel]
    cases s.percentageRelativeTo c with
    | auto =>
      have e : z.la .auto = .auto := rfl
      simp only [e, la_auto0, anchor, ← mul_sub]
      rfl
    | length l => cases ms <;> cases me <;> simp only [la, anchor, ← mul_sub, hf]

theorem solveInlineAuto_z (m : ℚ) : solveInlineAuto (z.k * m) = (z.k * (solveInlineAuto m).1, z.k * (solveInlineAuto m).2) := by
  unfold solveInlineAuto
  simp only [k_nonneg]
  split <;> simp [mul_div_assoc]

theorem solveBlockAuto_z (m : ℚ) : solveBlockAuto (z.k * m) = (z.k * (solveBlockAuto m).1, z.k * (solveBlockAuto m).2) := by
  simp [solveBlockAuto, mul_div_assoc]

/-- the sizes of an absolutely positioned box -/
def asizes (s : AbsSizes) : AbsSizes :=
  ⟨z.sides s.padding, z.sides s.border, z.sides s.margin, z.anchor s.inlineAnchor, z.anchor s.blockAnchor,
    z.k * s.inlineSize, z.la s.blockSize⟩

theorem absSizes_z (a : AbsFragment) (c : DefiniteContainingBlock) :
    absSizes (z.abs a) (z.dcb c) = z.asizes (absSizes a c) := by
  have e1 : (z.dcb c).size.inline = z.k * c.size.inline := rfl
  have e2 : (z.abs a).style = z.style a.style := rfl
  have e3 : (z.abs a).inlineStart = z.offsets a.inlineStart := rfl
  have e4 : (z.abs a).blockStart = z.offsets a.blockStart := rfl
  have e5 : (z.abs a).inlineSize = z.lpa a.inlineSize := rfl
  have e6 : (z.abs a).blockSize = z.lpa a.blockSize := rfl
  have m1 : ∀ s, (z.asides s).inlineStart = z.la s.inlineStart := fun _ => rfl
  have m2 : ∀ s, (z.asides s).inlineEnd = z.la s.inlineEnd := fun _ => rfl
  have m3 : ∀ s, (z.asides s).blockStart = z.la s.blockStart := fun _ => rfl
  have m4 : ∀ s, (z.asides s).blockEnd = z.la s.blockEnd := fun _ => rfl
  unfold absSizes asizes
  simp only [e1, e2, e3, e4, e5, e6, style_padding, style_border, style_margin, sides_add, sides_inlineSum, sides_blockSum,
    m1, m2, m3, m4, z.solveAxis_z _ _ _ _ _ z.solveInlineAuto_z, z.solveAxis_z _ _ _ _ _ z.solveBlockAuto_z]
  generalize solveAxis c.size.inline _ _ _ solveInlineAuto a.inlineStart a.inlineSize = i
  generalize solveAxis c.size.inline _ _ _ solveBlockAuto a.blockStart a.blockSize = b
  obtain ⟨i1, i2, i3, i4⟩ := i
  obtain ⟨b1, b2, b3, b4⟩ := b
  cases i1 <;> simp only [anchor, sides, Sides.inlineSum, ← mul_sub, ← mul_add, la_auto]

theorem contentRect_z (s : AbsSizes) (c : DefiniteContainingBlock) (b : ℚ) :
    (z.asizes s).contentRect (z.dcb c) (z.k * b) = z.rect (s.contentRect c b) := by
  obtain ⟨p, bo, m, ia, ba, is, bs⟩ := s
  have e : (AbsSizes.pb (z.asizes ⟨p, bo, m, ia, ba, is, bs⟩)) = z.sides (AbsSizes.pb ⟨p, bo, m, ia, ba, is, bs⟩) :=
    z.sides_add _ _
  unfold AbsSizes.contentRect
  rw [e]
  cases ia <;> cases ba <;> simp only [asizes, anchor, sides, rect, vec, dcb, mul_add, mul_sub]

theorem absLayoutWith_z (h : z.Fonts E E') (hL : z.BoxOk L L') (hA : z.AbsOk A A') :
    z.AbsOk (absLayoutWith E L A) (absLayoutWith E' L' A') := by
  intro a c
  have e1 : (z.abs a).style = z.style a.style := rfl
  have e2 : (z.abs a).contents = z.bfc a.contents := rfl
  have e3 : (z.dcb c).mode = c.mode := rfl
  have e4 : ∀ s : AbsSizes, (⟨(z.asizes s).inlineSize, (z.asizes s).blockSize, a.style.writingMode⟩ : ContainingBlock) =
    z.cb ⟨s.inlineSize, s.blockSize, a.style.writingMode⟩ := fun _ => rfl
  unfold absLayoutWith
  simp only [absSizes_z, e1, e2, e3, style_mode, e4]
  generalize absSizes a c = s
  split
  · rfl
  · have hb := z.bfcLayout_z h hL a.contents ⟨s.inlineSize, s.blockSize, a.style.writingMode⟩ 0 []
    simp only [List.map_nil] at hb
    simp only [hb, bind, Except.bind, pure, Except.pure]
    cases bfcLayout E L a.contents ⟨s.inlineSize, s.blockSize, a.style.writingMode⟩ 0 [] with
    | error e => rfl
    | ok p =>
      have h1 : (z.asizes s).blockSize = z.la s.blockSize := rfl
      have h2 : (z.flow p.1).blockSize = z.k * p.1.blockSize := rfl
      have h3 : (z.flow p.1).fragments = z.frags p.1.fragments := rfl
      have h5 : (z.asizes s).padding = z.sides s.padding := rfl
      have h6 : ∀ r, (z.rect r).size = z.vec r.size := fun _ => rfl
      simp only [Except.map, fpair, h1, h2, h3, la_auto, contentRect_z, h5, h6, z.inPositioned_z hA]
      cases inPositionedContainingBlock A p.2 p.1.fragments (s.contentRect c (s.blockSize.autoIs p.1.blockSize)).size
        s.padding a.style.writingMode with
      | error e => rfl
      | ok cs =>
        simp only [frag, geom, margins, CollapsedBlockMargins.zero, margin_zero]
        rfl

theorem layout_z (h : z.Fonts E E') : ∀ n, z.BoxOk (boxLayout E n) (boxLayout E' n) ∧ z.AbsOk (absLayout E n) (absLayout E' n)
  | 0 => ⟨fun _ _ _ _ _ => rfl, fun _ _ => rfl⟩
  | n + 1 => by
    obtain ⟨h1, h2⟩ := layout_z h n
    exact ⟨z.boxLayoutWith_z h h1 h2, z.absLayoutWith_z h h1 h2⟩

mutual

theorem container_depth : ∀ c : BlockContainer, (z.container c).depth = c.depth
  | .blockLevelBoxes bs => by simp only [container, BlockContainer.depth, blocks_depth bs]
  | .inlineFormattingContext _ bs => by simp only [container, BlockContainer.depth, inlines_depth bs]

theorem bfc_depth : ∀ b : Bfc, (z.bfc b).depth = b.depth
  | .mk c _ => by simp only [bfc, Bfc.depth, container_depth c]

theorem block_depth : ∀ b : BlockLevelBox, (z.block b).depth = b.depth
  | .sameFormattingContextBlock _ c => by simp only [block, BlockLevelBox.depth, container_depth c]
  | .outOfFlowAbsolutelyPositionedBox _ c => by simp only [block, BlockLevelBox.depth, bfc_depth c]
  | .outOfFlowFloatBox _ c => by simp only [block, BlockLevelBox.depth, bfc_depth c]
  | .independent _ c => by simp only [block, BlockLevelBox.depth, bfc_depth c]

theorem blocks_depth : ∀ bs : List BlockLevelBox, blockDepth (z.blocks bs) = blockDepth bs
  | [] => rfl
  | b :: bs => by simp only [blocks, blockDepth, block_depth b, blocks_depth bs]

theorem inline_depth : ∀ b : InlineLevelBox, (z.inline b).depth = b.depth
  | .inlineBox _ _ _ cs => by simp only [inline, InlineLevelBox.depth, inlines_depth cs]
  | .textRun .. => rfl
  | .outOfFlowAbsolutelyPositionedBox _ c => by simp only [inline, InlineLevelBox.depth, bfc_depth c]
  | .outOfFlowFloatBox _ c => by simp only [inline, InlineLevelBox.depth, bfc_depth c]

theorem inlines_depth : ∀ bs : List InlineLevelBox, inlineDepth (z.inlines bs) = inlineDepth bs
  | [] => rfl
  | b :: bs => by simp only [inlines, inlineDepth, inline_depth b, inlines_depth bs]

end

theorem rootLayout_z (h : z.Fonts E E') (b : Bfc) (size : PVec2 Length) :
    rootLayout E' (z.bfc b) (z.psize size) = (rootLayout E b size).map z.frags := by
  have e1 : ∀ m : Mode, (⟨z.k * size.x, .length (z.k * size.y), m⟩ : ContainingBlock) =
    z.cb ⟨size.x, .length size.y, m⟩ := fun _ => rfl
  have e2 : ∀ m : Mode, (⟨⟨z.k * size.x, z.k * size.y⟩, m⟩ : DefiniteContainingBlock) =
    z.dcb ⟨⟨size.x, size.y⟩, m⟩ := fun _ => rfl
  have e3 : ([] : List AbsFragment) = ([] : List AbsFragment).map z.abs := rfl
  unfold rootLayout rootLayoutWith
  simp only [bfc_depth, psize, e1, e2]
  rw [e3, z.bfcLayout_z h (z.layout_z h b.depth).1]
  simp only [List.map_nil, bind, Except.bind, pure, Except.pure]
  cases bfcLayout E (boxLayout E b.depth) b ⟨size.x, .length size.y, (.horizontalTb, .ltr)⟩ 0 [] with
  | error e => rfl
  | ok p =>
    simp only [Except.map, fpair, z.layoutAbsEach_z (z.layout_z h b.depth).2]
    cases layoutAbsEach (absLayout E b.depth) ⟨⟨size.x, size.y⟩, (.horizontalTb, .ltr)⟩ p.2 with
    | error e => rfl
    | ok q => simp only [frags_append, flow]

/-! ### Painting -/

/-- a rectangle of the page -/
def prect (r : PRect Length) : PRect Length := ⟨z.psize r.topLeft, z.psize r.size⟩

/-- a trace -/
def trace (t : Trace) : Trace := ⟨t.calls.map z.call, t.panic⟩

theorem andThen_z (a b : Trace) : (z.trace a).andThen (z.trace b) = z.trace (a.andThen b) := by
  obtain ⟨c, p⟩ := a
  cases p <;> simp [Trace.andThen, trace]

theorem onPage_z (r : Rect Length) (m : Mode) (c : PRect Length) :
    (z.rect r).onPage m (z.prect c) = (r.onPage m c).map z.prect := by
  obtain ⟨wm, d⟩ := m
  have e : ∀ a b : PVec2 Length, a + b = ⟨a.x + b.x, a.y + b.y⟩ := fun _ _ => rfl
  cases wm <;> cases d <;>
    simp [Rect.onPage, Rect.toPhysical, Except.map, PRect.translate, prect, psize, rect, vec, Vec2.sizeToPhysical, e, mul_add]

theorem recordBox_z (r : PRect Length) : recordBox (z.prect r) = z.trace (recordBox r) := rfl

theorem toRgba_z (hz : z.KeepsColours) {s : Style} {c c' : CssColor} (h : c' = c) : (z.style s).toRgba c' = s.toRgba c := by
  subst h
  cases c' with
  | currentColor => exact hz .color _
  | rgba => rfl

theorem paintBackground_z (hz : z.KeepsColours) (s : Style) (b : PRect Length) :
    paintBackground (z.style s) (z.prect b) = z.trace (paintBackground s b) := by
  have e : (z.style s).toRgba ((z.style s).val .backgroundColor) = s.toRgba (s.val .backgroundColor) := z.toRgba_z hz (hz .backgroundColor _)
  unfold paintBackground
  rw [e]
  by_cases h : (s.toRgba (s.val .backgroundColor)).a > 0
  · simp only [if_pos h]; rfl
  · simp only [if_neg h]; rfl

theorem paintTop_z (hz : z.KeepsColours) (s : Style) (b p : PRect Length) :
    paintTop (z.style s) (z.prect b) (z.prect p) = z.trace (paintTop s b p) := by
  have e : (z.style s).toRgba ((z.style s).val .borderTopColor) = s.toRgba (s.val .borderTopColor) := z.toRgba_z hz (hz .borderTopColor _)
  have e2 : (z.style s).val .borderTopStyle = s.val .borderTopStyle := hz .borderTopStyle _
  unfold paintTop
  rw [e, e2]
  simp only [prect, psize, ← mul_sub, gt_iff_lt, k_pos]
  split
  · simp only [trace, Trace.call, List.map_cons, List.map_nil, call, ← mul_add, ← mul_sub, mul_div_assoc]
  · rfl

theorem paintRight_z (hz : z.KeepsColours) (s : Style) (b p : PRect Length) :
    paintRight (z.style s) (z.prect b) (z.prect p) = z.trace (paintRight s b p) := by
  have e : (z.style s).toRgba ((z.style s).val .borderRightColor) = s.toRgba (s.val .borderRightColor) := z.toRgba_z hz (hz .borderRightColor _)
  have e2 : (z.style s).val .borderRightStyle = s.val .borderRightStyle := hz .borderRightStyle _
  unfold paintRight
  rw [e, e2]
  simp only [prect, psize, ← mul_add, ← mul_sub, gt_iff_lt, k_pos]
  split
  · simp only [trace, Trace.call, List.map_cons, List.map_nil, call, ← mul_add, ← mul_sub, mul_div_assoc]
  · rfl

theorem paintBottom_z (hz : z.KeepsColours) (s : Style) (b p : PRect Length) :
    paintBottom (z.style s) (z.prect b) (z.prect p) = z.trace (paintBottom s b p) := by
  have e : (z.style s).toRgba ((z.style s).val .borderBottomColor) = s.toRgba (s.val .borderBottomColor) := z.toRgba_z hz (hz .borderBottomColor _)
  have e2 : (z.style s).val .borderBottomStyle = s.val .borderBottomStyle := hz .borderBottomStyle _
  unfold paintBottom
  rw [e, e2]
  simp only [prect, psize, ← mul_add, ← mul_sub, gt_iff_lt, k_pos]
  split
  · simp only [trace, Trace.call, List.map_cons, List.map_nil, call, ← mul_add, ← mul_sub, mul_div_assoc]
  · rfl

theorem paintLeft_z (hz : z.KeepsColours) (s : Style) (b p : PRect Length) :
    paintLeft (z.style s) (z.prect b) (z.prect p) = z.trace (paintLeft s b p) := by
  have e : (z.style s).toRgba ((z.style s).val .borderLeftColor) = s.toRgba (s.val .borderLeftColor) := z.toRgba_z hz (hz .borderLeftColor _)
  have e2 : (z.style s).val .borderLeftStyle = s.val .borderLeftStyle := hz .borderLeftStyle _
  unfold paintLeft
  rw [e, e2]
  simp only [prect, psize, ← mul_sub, gt_iff_lt, k_pos]
  split
  · simp only [trace, Trace.call, List.map_cons, List.map_nil, call, ← mul_add, ← mul_sub, mul_div_assoc]
  · rfl

theorem after_z {α β : Type} (f : α → β) (e : Except Panic α) (k : β → Trace) (k' : α → Trace)
    (h : ∀ a, k (f a) = z.trace (k' a)) : Trace.after (e.map f) k = z.trace (.after e k') := by
  cases e with
  | error p => rfl
  | ok a => exact h a

mutual

theorem paintOnto_z (hz : z.KeepsColours) : ∀ (f : Fragment) (c : PRect Length), (z.frag f).paintOnto (z.prect c) = z.trace (f.paintOnto c)
  | .box st g m cs, c => by
    have h1 : (z.geom g).paddingRect = z.rect g.paddingRect := z.rect_inflate _ _
    have h2 : (z.geom g).borderRect = z.rect g.borderRect := by
      show (BoxGeom.paddingRect (z.geom g)).inflate (z.sides g.border) = _
      rw [h1, rect_inflate]; rfl
    have h3 : (z.geom g).marginRect = z.rect g.marginRect := by
      show (BoxGeom.borderRect (z.geom g)).inflate (z.sides g.margin) = _
      rw [h2, rect_inflate]; rfl
    have h4 : (z.geom g).contentRect = z.rect g.contentRect := rfl
    simp only [frag, Fragment.paintOnto, h1, h2, h3, h4, style_mode, onPage_z]
    refine z.after_z _ _ _ _ fun a => z.after_z _ _ _ _ fun b => z.after_z _ _ _ _ fun p => z.after_z _ _ _ _ fun q => ?_
    simp only [recordBox_z, paintBackground_z _ hz, paintTop_z _ hz, paintRight_z _ hz, paintBottom_z _ hz, paintLeft_z _ hz,
      paintAll_z hz cs, andThen_z]
  | .anonymous r cs m, c => by
    simp only [frag, Fragment.paintOnto, onPage_z]
    refine z.after_z _ _ _ _ fun a => ?_
    simp only [recordBox_z, paintAll_z hz cs, andThen_z]
  | .text st r t, c => by
    simp only [frag, Fragment.paintOnto, onPage_z, style_mode]
    refine z.after_z _ _ _ _ fun a => ?_
    rw [recordBox_z, ← andThen_z]
    congr 1
    simp only [trace, Trace.call, List.map_cons, List.map_nil, call, prect, psize, seg, font, mul_add]
    rw [show (z.style st).val .color = st.val .color from hz .color _]

theorem paintAll_z (hz : z.KeepsColours) : ∀ (fs : List Fragment) (c : PRect Length), paintAll (z.prect c) (z.frags fs) = z.trace (paintAll c fs)
  | [], _ => rfl
  | f :: fs, c => by simp only [frags, paintAll, paintOnto_z hz f, paintAll_z hz fs, andThen_z]

end

theorem paintPage_z (hz : z.KeepsColours) (size : PVec2 Length) (fs : List Fragment) :
    paintPage (z.psize size) (z.frags fs) = z.trace (paintPage size fs) := by
  unfold paintPage
  rw [← paintAll_z z hz]
  simp only [prect, psize, mul_zero]

end Sinab.Zoom
