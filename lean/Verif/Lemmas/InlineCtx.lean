import Verif.Lemmas.Inline
import Verif.Spec.Inline
import Mathlib.Tactic.Ring
import Mathlib.Tactic.Linarith

/-! The inline formatting context: the state of the loop is that of a partly filled page
(`Ghost`), and the whole loop produces `placeLines` of lines allowed by `LaysOut`. -/

namespace Sinab

/-! ### append lemmas -/

theorem advance_append (E : TextEnv) (w : ℚ) (a b : List Item) (x : ℚ) :
    advance E w (a ++ b) x = advance E w b (advance E w a x) := by
  induction a generalizing x with
  | nil => simp [advance]
  | cons i a ih => simp [advance, ih]

theorem extents_append (E : TextEnv) (a b : List Item) (f : Font) (d : ℚ) :
    extents E (a ++ b) f d = extents E a f d ++ extents E b f d := by
  induction a with
  | nil => simp [extents]
  | cons i a ih => simp [extents, ih]

theorem place_append (E : TextEnv) (cb : ContainingBlock) (a b : List Item) (f : Font) (o x : ℚ) :
    place E cb (a ++ b) f o x = place E cb a f o x ++ place E cb b f o (advance E cb.inlineSize a x) := by
  induction a generalizing x with
  | nil => simp [place, advance]
  | cons i a ih => simp [place, advance, ih]

theorem maxAll_nonneg (l : List ℚ) : 0 ≤ maxAll l := by
  induction l with
  | nil => simp [maxAll]
  | cons a l ih => exact le_trans ih (le_max_right _ _)

theorem maxAll_append (a b : List ℚ) : maxAll (a ++ b) = max (maxAll a) (maxAll b) := by
  induction a with
  | nil => simp [maxAll]; exact maxAll_nonneg b
  | cons x a ih =>
    show max x (maxAll (a ++ b)) = max (max x (maxAll a)) (maxAll b)
    rw [ih, max_assoc]

theorem maxAll_append_one (a : List ℚ) (v : ℚ) : maxAll (a ++ [v]) = max (maxAll a) v := by
  rw [maxAll_append]
  show max (maxAll a) (max v 0) = _
  rw [max_comm v 0, ← max_assoc, max_eq_left (maxAll_nonneg a)]

/-! ### Partly filled pages -/

/-- An open inline box: `items` precede it on the current line in its parent, `rem` is
what follows it in its parent. -/
structure GBox where
  style : Style
  onFirst : Bool
  startEdge : Bool
  last : Bool
  items : List Item
  rem : List InlineLevelBox

/-- A partly filled page. -/
structure Ghost where
  done : List Line
  stack : List GBox
  cur : List Item
  rem : List InlineLevelBox

/-- font, shift and start position of the innermost open box -/
def ctx (E : TextEnv) (w : ℚ) (root : Font) : List GBox → Font × ℚ × ℚ
  | [] => (root, 0, 0)
  | b :: g =>
    let c := ctx E w root g
    let x := advance E w b.items c.2.2
    (E.font b.style, c.2.1 + shiftOf b.style (E.font b.style) c.1,
     if b.startEdge then x + startSpace w b.style else x)

/-- the nesting level with these items -/
def levelOf (E : TextEnv) (cb : ContainingBlock) (c : Font × ℚ × ℚ) (items : List Item)
    (rem : List InlineLevelBox) : NestLevel where
  remaining := rem
  fragmentsSoFar := place E cb items c.1 c.2.2 c.2.2
  inlineStart := c.2.2
  blockAscent := c.1.ascent
  blockDescent := c.1.descent
  blockEx := c.1.ex
  baselineAdjustment := c.2.1
  maxAscent := maxAll ((extents E items c.1 c.2.1).map (·.1))
  maxDescent := maxAll ((extents E items c.1 c.2.1).map (·.2))

/-- the partial box of an open box -/
def boxOf (E : TextEnv) (cb : ContainingBlock) (c : Font × ℚ × ℚ) (b : GBox) : PartialBox :=
  let x := advance E cb.inlineSize b.items c.2.2
  let x0 := if b.startEdge then x + startSpace cb.inlineSize b.style else x
  let rel := relativeAdjustement b.style cb.inlineSize cb.blockSize
  { style := b.style
    startCorner := ⟨x0 - c.2.2 + (if b.onFirst then rel.inline else 0),
      shiftOf b.style (E.font b.style) c.1 + rel.block⟩
    padding := cutSides b.startEdge true (b.style.padding.percentagesRelativeTo cb.inlineSize)
    border := cutSides b.startEdge true (b.style.borderWidth.percentagesRelativeTo cb.inlineSize)
    margin := cutSides b.startEdge true (inlineMargin cb.inlineSize b.style)
    blockAscent := (E.font b.style).ascent
    blockDescent := (E.font b.style).descent
    lastBoxTreeFragment := b.last
    parent := levelOf E cb c b.items b.rem }

def stackOf (E : TextEnv) (cb : ContainingBlock) (root : Font) : List GBox → List PartialBox
  | [] => []
  | b :: g => boxOf E cb (ctx E cb.inlineSize root g) b :: stackOf E cb root g

/-- position on the current line -/
def Ghost.pos (E : TextEnv) (w : ℚ) (root : Font) (G : Ghost) : ℚ :=
  advance E w G.cur (ctx E w root G.stack).2.2

/-- the state of the loop for a partly filled page -/
def build (E : TextEnv) (cb : ContainingBlock) (align : TextAlign) (root : Font) (G : Ghost) :
    IfcState where
  cb := cb
  lines := placeLines E cb align root 0 G.done
  nextLineBlockPosition := pageHeight E root G.done
  textAlign := align
  inlinePosition := G.pos E cb.inlineSize root
  stack := stackOf E cb root G.stack
  current := levelOf E cb (ctx E cb.inlineSize root G.stack) G.cur G.rem

/-- opens a box -/
def Ghost.start (G : Ghost) (st : Style) (first last : Bool) (children : List InlineLevelBox) :
    Ghost :=
  { done := G.done, stack := ⟨st, true, first, last, G.cur, G.rem⟩ :: G.stack, cur := [],
    rem := children }

/-- closes the innermost box `b`; `g` are the others -/
def Ghost.close (G : Ghost) (b : GBox) (g : List GBox) : Ghost :=
  { done := G.done, stack := g,
    cur := b.items ++ [.box b.style b.onFirst b.startEdge b.last G.cur], rem := b.rem }

/-- adds an item -/
def Ghost.add (G : Ghost) (items : List Item) : Ghost := { G with cur := G.cur ++ items }

/-- the whole current line if all open boxes are cut off -/
def closeAll : List GBox → List Item → Line
  | [], items => items
  | b :: g, items => closeAll g (b.items ++ [.box b.style b.onFirst b.startEdge false items])

/-- an open box on the next line -/
def GBox.cont (b : GBox) : GBox := { b with onFirst := false, startEdge := false, items := [] }

/-- starts a new line -/
def Ghost.line (G : Ghost) : Ghost :=
  { done := G.done ++ [closeAll G.stack G.cur], stack := G.stack.map GBox.cont, cur := [],
    rem := G.rem }

/-- adds lines: the first continues the current line -/
def Ghost.extend (G : Ghost) : List Line → Ghost
  | [] => G
  | [l] => G.add l
  | l :: l' :: L => (G.add l).line.extend (l' :: L)

/-! ### Steps -/

theorem baselineShift_eq (style : Style) (own parent : Font) (lvl : NestLevel)
    (h1 : lvl.blockAscent = parent.ascent) (h2 : lvl.blockEx = parent.ex) :
    baselineShift style own.ascent own.descent lvl = shiftOf style own parent := by
  unfold baselineShift shiftOf
  rw [h1, h2, Font.ex]
  cases (style.val .verticalAlign : VerticalAlign) <;> simp only <;> ring

theorem lineAscentDescent_eq (style : Style) (font : Font) :
    lineAscentDescent style font = (ascentOf style font, descentOf style font) := rfl

theorem build_startBox (E : TextEnv) (cb : ContainingBlock) (align : TextAlign) (root : Font)
    (G : Ghost) (st : Style) (first last : Bool) (children : List InlineLevelBox) :
    (build E cb align root G).startBox E st first last children =
      build E cb align root (G.start st first last children) := by
  have hs := baselineShift_eq st (E.font st) (ctx E cb.inlineSize root G.stack).1
    (build E cb align root G).current rfl rfl
  unfold IfcState.startBox
  simp only [hs]
  cases first <;> rfl

theorem fragment_eq (E : TextEnv) (cb : ContainingBlock) (c : Font × ℚ × ℚ) (b : GBox)
    (items : List Item) (rem : List InlineLevelBox) (brk : Bool) (c' : Font × ℚ × ℚ)
    (hf : c'.1 = E.font b.style)
    (hx : c'.2.2 = if b.startEdge then advance E cb.inlineSize b.items c.2.2 +
      startSpace cb.inlineSize b.style else advance E cb.inlineSize b.items c.2.2) :
    ((boxOf E cb c b).fragment (levelOf E cb c' items rem)
      (advance E cb.inlineSize items c'.2.2) brk) =
    (Fragment.box b.style
      { contentRect :=
          ⟨⟨c'.2.2 - c.2.2 + (if b.onFirst then
              (relativeAdjustement b.style cb.inlineSize cb.blockSize).inline else 0),
            shiftOf b.style (E.font b.style) c.1 +
              (relativeAdjustement b.style cb.inlineSize cb.blockSize).block +
              (c.1.ascent - (E.font b.style).ascent)⟩,
           ⟨advance E cb.inlineSize items c'.2.2 - c'.2.2,
            (E.font b.style).ascent + (E.font b.style).descent⟩⟩
        padding := cutSides b.startEdge (b.last && !brk)
          (b.style.padding.percentagesRelativeTo cb.inlineSize)
        border := cutSides b.startEdge (b.last && !brk)
          (b.style.borderWidth.percentagesRelativeTo cb.inlineSize)
        margin := cutSides b.startEdge (b.last && !brk) (inlineMargin cb.inlineSize b.style) }
      .zero (place E cb items (E.font b.style) c'.2.2 c'.2.2),
     if (b.last && !brk) then advance E cb.inlineSize items c'.2.2 + endSpace cb.inlineSize b.style
      else advance E cb.inlineSize items c'.2.2) := by
  obtain ⟨f, d, x⟩ := c'
  simp only at hf hx
  subst hf
  unfold PartialBox.fragment
  cases h : (b.last && !brk) <;> simp only [boxOf, levelOf, h, ← hx] <;> rfl

theorem finishLayout_parent (E : TextEnv) (cb : ContainingBlock) (root : Font) (b : GBox)
    (g : List GBox) (items : List Item) (rem : List InlineLevelBox) (brk : Bool) :
    let c := ctx E cb.inlineSize root g
    let c' := ctx E cb.inlineSize root (b :: g)
    let r := (boxOf E cb c b).finishLayout (levelOf E cb c' items rem)
      (advance E cb.inlineSize items c'.2.2) brk
    let items' := b.items ++ [.box b.style b.onFirst b.startEdge (b.last && !brk) items]
    r.1 = { boxOf E cb c b with parent := levelOf E cb c items' b.rem } ∧
    r.2.1 = { levelOf E cb c' items rem with fragmentsSoFar := [] } ∧
    r.2.2 = advance E cb.inlineSize items' c.2.2 := by
  intro c c' r items'
  have hfr := fragment_eq E cb c b items rem brk c' rfl rfl
  refine ⟨?_, rfl, ?_⟩
  · simp only [r, PartialBox.finishLayout, hfr, items']
    simp only [boxOf, levelOf, place_append, extents_append, List.map_append, maxAll_append]
    simp only [place, Item.place, extents, Item.extents]
    simp only [List.append_nil]
    rfl
  · simp only [r, PartialBox.finishLayout, hfr, items', advance_append]
    simp only [advance, Item.advance]
    rfl

theorem build_endBox (E : TextEnv) (cb : ContainingBlock) (align : TextAlign) (root : Font)
    (G : Ghost) (b : GBox) (g : List GBox) (h : G.stack = b :: g) :
    (build E cb align root G).endBox (boxOf E cb (ctx E cb.inlineSize root g) b)
      (stackOf E cb root g) = build E cb align root (G.close b g) := by
  have hp := finishLayout_parent E cb root b g G.cur G.rem false
  simp only at hp
  unfold IfcState.endBox
  simp only [build, Ghost.pos, h, Ghost.close]
  rw [hp.1, hp.2.2]
  simp

theorem build_add_text (E : TextEnv) (cb : ContainingBlock) (align : TextAlign) (root : Font)
    (G : Ghost) (st : Style) (font : Font) (shaped : ShapedSegment) (nl : Bool)
    (hfr : shaped.Fresh E) (hf : shaped.font = font) :
    ((build E cb align root G).pushText E st font shaped nl).1 =
      build E cb align root (G.add [.text st font shaped.glyphs nl]) := by
  have hw : (shaped.getAdvanceWidth E).1 = E.width font shaped.glyphs := by
    rw [ShapedSegment.getAdvanceWidth_fst hfr, hf]
  have hs : (shaped.getAdvanceWidth E).2 =
      ⟨font, shaped.glyphs, some (E.width font shaped.glyphs)⟩ := by
    have h1 : (shaped.getAdvanceWidth E).2.glyphs = shaped.glyphs := by simp
    have h2 : (shaped.getAdvanceWidth E).2.font = shaped.font := by simp
    have h3 : (shaped.getAdvanceWidth E).2.advanceWidth = some (shaped.getAdvanceWidth E).1 := by
      unfold ShapedSegment.getAdvanceWidth
      split <;> simp_all
    rw [hw] at h3
    rw [hf] at h2
    cases hh : (shaped.getAdvanceWidth E).2
    simp_all
  have hemp : (ShapedSegment.mk font shaped.glyphs (some (E.width font shaped.glyphs))).empty
      = decide (shaped.glyphs = []) := by
    rw [ShapedSegment.empty_eq]
  unfold IfcState.pushText
  simp only [hw, hs, hemp, lineAscentDescent_eq]
  by_cases ht : shaped.glyphs = []
  · cases nl
    · simp [ht, build, Ghost.add, Ghost.pos, levelOf, place_append, extents_append,
        advance_append, place, Item.place, extents, Item.extents, advance, Item.advance]
    · simp [ht, build, Ghost.add, Ghost.pos, levelOf, place_append, extents_append,
        advance_append, place, Item.place, extents, Item.extents, advance, Item.advance,
        maxAll_append_one]
  · simp [ht, build, Ghost.add, Ghost.pos, levelOf, place_append, extents_append,
        advance_append, place, Item.place, extents, Item.extents, advance, Item.advance,
        maxAll_append_one]

theorem ctx_cont (E : TextEnv) (w : ℚ) (root : Font) (g : List GBox) :
    ctx E w root (g.map GBox.cont) = ((ctx E w root g).1, (ctx E w root g).2.1, 0) := by
  induction g with
  | nil => rfl
  | cons b g ih => simp [ctx, ih, GBox.cont, advance]

theorem finishOpenBoxes_build (E : TextEnv) (cb : ContainingBlock) (root : Font) (g : List GBox)
    (items : List Item) (rem : List InlineLevelBox) :
    let c := ctx E cb.inlineSize root g
    let r := finishOpenBoxes (levelOf E cb c items rem) (stackOf E cb root g)
      (advance E cb.inlineSize items c.2.2)
    r.2.2 = advance E cb.inlineSize (closeAll g items) 0 ∧
    (∃ rem', topLevel r.1 r.2.1 = levelOf E cb (root, 0, 0) (closeAll g items) rem') ∧
    setTopLevel r.1 { topLevel r.1 r.2.1 with maxAscent := 0, maxDescent := 0, fragmentsSoFar := [] }
      r.2.1 = (levelOf E cb (ctx E cb.inlineSize root (g.map GBox.cont)) [] rem,
        stackOf E cb root (g.map GBox.cont)) := by
  induction g generalizing items rem with
  | nil => exact ⟨rfl, ⟨rem, rfl⟩, rfl⟩
  | cons b g ih =>
    intro c r
    have hp := finishLayout_parent E cb root b g items rem true
    simp only [Bool.not_true, Bool.and_false] at hp
    have ih' := ih (b.items ++ [.box b.style b.onFirst b.startEdge false items]) b.rem
    simp only at ih'
    have hr : r = finishOpenBoxes (levelOf E cb (ctx E cb.inlineSize root (b :: g)) items rem)
      (boxOf E cb (ctx E cb.inlineSize root g) b :: stackOf E cb root g)
      (advance E cb.inlineSize items (ctx E cb.inlineSize root (b :: g)).2.2) := rfl
    simp only [finishOpenBoxes, hp.1, hp.2.1, hp.2.2, PartialBox.continueOnNextLine] at hr
    rw [hr]
    simp only [closeAll, topLevel, setTopLevel]
    refine ⟨ih'.1, ih'.2.1, ?_⟩
    rw [ih'.2.2]
    simp only [List.map_cons, stackOf, Prod.mk.injEq, List.cons.injEq, and_true]
    have hc := ctx_cont E cb.inlineSize root (b :: g)
    have hc' := ctx_cont E cb.inlineSize root g
    refine ⟨?_, ?_⟩
    · simp only [List.map_cons] at hc
      rw [hc]
      simp [levelOf, place, extents, maxAll]
    · rw [hc']
      simp [boxOf, GBox.cont, advance, cutSides, levelOf]

theorem placeLines_append (E : TextEnv) (cb : ContainingBlock) (align : TextAlign) (root : Font)
    (y : ℚ) (A B : List Line) : placeLines E cb align root y (A ++ B) =
      placeLines E cb align root y A ++ placeLines E cb align root (y + pageHeight E root A) B := by
  induction A generalizing y with
  | nil => simp [placeLines, pageHeight]
  | cons a A ih => simp [placeLines, pageHeight, ih, add_assoc]

theorem build_finishLine (E : TextEnv) (cb : ContainingBlock) (align : TextAlign) (root : Font)
    (G : Ghost) : (build E cb align root G).finishLine = build E cb align root G.line := by
  obtain ⟨h1, ⟨rem', h2⟩, h3⟩ := finishOpenBoxes_build E cb root G.stack G.cur G.rem
  unfold IfcState.finishLine
  simp only [build, Ghost.pos, linesFinishLine]
  rw [h1]
  rw [h3]
  rw [h2]
  simp only [Ghost.line, placeLines_append, pageHeight, List.map_append, List.sum_append,
    List.map_cons, List.map_nil, List.sum_cons, List.sum_nil, ctx_cont, advance, zero_add, add_zero]
  simp only [placeLines, levelOf]
  rfl

/-! ### Runs -/

theorem Ghost.extend_cons (G : Ghost) (l : Line) (L : List Line) (h : L ≠ []) :
    G.extend (l :: L) = (G.add l).line.extend L := by
  obtain ⟨l', L', rfl⟩ := List.exists_cons_of_ne_nil h
  rfl

theorem TextRunsTo.build {E : TextEnv} {st : Style} {font : Font} {s s' : IfcState} {ps}
    (h : TextRunsTo E st font s ps s') (cb : ContainingBlock) (align : TextAlign) (root : Font) :
    ∀ G : Ghost, s = build E cb align root G →
      s' = Sinab.build E cb align root (G.extend (ps.map fun p => [Item.text st font p.1 p.2])) := by
  induction h with
  | last s shaped hfr hf =>
    rintro G rfl
    rw [build_add_text E cb align root G st font shaped false hfr hf]
    rfl
  | more s s' shaped nl pieces hfr hf h ih =>
    rintro G rfl
    rw [List.map_cons, Ghost.extend_cons _ _ _ (by simpa using h.ne_nil)]
    apply ih
    rw [build_add_text E cb align root G st font shaped nl hfr hf, build_finishLine]

@[simp] theorem Ghost.extend_rem (G : Ghost) (L : List Line) : (G.extend L).rem = G.rem := by
  induction L generalizing G with
  | nil => rfl
  | cons l L ih =>
    cases L with
    | nil => rfl
    | cons l' L => rw [Ghost.extend, ih]; rfl

/-- the rest of the innermost level -/
def Ghost.setRem (G : Ghost) (rem : List InlineLevelBox) : Ghost := { G with rem := rem }

theorem Ghost.extend_setRem (G : Ghost) (L : List Line) (rem : List InlineLevelBox) :
    (G.setRem rem).extend L = (G.extend L).setRem rem := by
  induction L generalizing G with
  | nil => rfl
  | cons l L ih =>
    cases L with
    | nil => rfl
    | cons l' L =>
      rw [Ghost.extend, Ghost.extend, ← ih]
      rfl

theorem Ghost.extend_join (G : Ghost) (A B : List Line) (hA : A ≠ []) (hB : B ≠ []) :
    G.extend (joinLines A B) = (G.extend A).extend B := by
  obtain ⟨b, B, rfl⟩ := List.exists_cons_of_ne_nil hB
  induction A generalizing G with
  | nil => exact absurd rfl hA
  | cons a A ih =>
    cases A with
    | nil =>
      simp only [joinLines, Ghost.extend]
      cases B with
      | nil => simp [Ghost.extend, Ghost.add]
      | cons b' B => simp [Ghost.extend, Ghost.add]
    | cons a' A =>
      rw [joinLines, Ghost.extend_cons, ih _ (by simp)]
      · rfl
      · cases A <;> simp [joinLines]

theorem joinLines_ne_nil (A B : List Line) (h : A ≠ [] ∨ B ≠ []) : joinLines A B ≠ [] := by
  match A, B with
  | [], B => simpa [joinLines] using h
  | [a], [] => simp [joinLines]
  | [a], b :: B => simp [joinLines]
  | a :: a' :: A, B => simp [joinLines]

theorem decorate_ne_nil (st : Style) (o s l : Bool) (L : List Line) (h : L ≠ []) :
    decorate st o s l L ≠ [] := by
  match L with
  | [] => exact absurd rfl h
  | [a] => simp [decorate]
  | a :: b :: L => simp [decorate]

/-- Opening a box, adding lines and closing it is adding decorated lines. -/
theorem Ghost.close_extend (L : List Line) (hL : L ≠ []) : ∀ (G : Ghost) (st : Style)
    (onFirst s last : Bool) (pre : List Item) (rem : List InlineLevelBox) (g : List GBox),
    G.stack = ⟨st, onFirst, s, last, pre, rem⟩ :: g → G.cur = [] →
    ∃ b g', (G.extend L).stack = b :: g' ∧ (G.extend L).close b g' =
      (Ghost.mk G.done g pre rem).extend (decorate st onFirst s last L) := by
  induction L with
  | nil => exact absurd rfl hL
  | cons l L ih =>
    intro G st onFirst s last pre rem g hst hcur
    cases L with
    | nil =>
      refine ⟨_, _, hst, ?_⟩
      simp [Ghost.extend, Ghost.close, Ghost.add, decorate, hcur]
    | cons l' L =>
      obtain ⟨b, g', h1, h2⟩ := ih (by simp) (G.add l).line st false false last [] rem
        (g.map GBox.cont) (by simp [Ghost.line, Ghost.add, hst, GBox.cont]) rfl
      refine ⟨b, g', h1, ?_⟩
      rw [Ghost.extend, h2, decorate, Ghost.extend_cons _ _ _ (decorate_ne_nil _ _ _ _ _ (by simp))]
      congr 1
      simp [Ghost.line, Ghost.add, hst, hcur, closeAll]

theorem extend_pos (E : TextEnv) (w : ℚ) (root : Font) (G : Ghost) (L : List Line) :
    (G.extend L).pos E w root = endPos E w (G.pos E w root) L := by
  induction L generalizing G with
  | nil => rfl
  | cons l L ih =>
    cases L with
    | nil => simp [Ghost.extend, Ghost.add, Ghost.pos, endPos, advance_append]
    | cons l' L =>
      rw [Ghost.extend, ih, endPos]
      congr 1
      simp [Ghost.line, Ghost.pos, ctx_cont, advance]

theorem LaysOut.ne_nil {E : TextEnv} {w x : ℚ} {bs : List InlineLevelBox} {L : List Line}
    (h : LaysOut E w x bs L) : L ≠ [] := by
  induction h with
  | nil => simp
  | text _ _ ih => exact joinLines_ne_nil _ _ (.inr ih)
  | box _ _ _ ih => exact joinLines_ne_nil _ _ (.inr ih)
  | abs _ ih => exact ih
  | float _ ih => exact ih

mutual
/-- absolutely positioned boxes have a `display` that generates a box -/
def InlineLevelBox.absOk : InlineLevelBox → Prop
  | .inlineBox _ _ _ children => inlineAbsOk children
  | .outOfFlowAbsolutelyPositionedBox st _ => ∃ o i, st.specifiedDisplay = .generatingBox o i
  | .textRun .. | .outOfFlowFloatBox .. => True

def inlineAbsOk : List InlineLevelBox → Prop
  | [] => True
  | b :: bs => b.absOk ∧ inlineAbsOk bs
end

/-- the box an absolutely positioned fragment was made from -/
def AbsFragment.box (a : AbsFragment) : Style × Bfc := (a.style, a.contents)

mutual
/-- the absolutely positioned boxes of inline content, in order -/
def InlineLevelBox.absBoxes : InlineLevelBox → List (Style × Bfc)
  | .inlineBox _ _ _ children => inlineAbsBoxes children
  | .outOfFlowAbsolutelyPositionedBox st c => [(st, c)]
  | .textRun .. | .outOfFlowFloatBox .. => []

/-- the absolutely positioned boxes of inline content, in order -/
def inlineAbsBoxes : List InlineLevelBox → List (Style × Bfc)
  | [] => []
  | b :: bs => b.absBoxes ++ inlineAbsBoxes bs
end

/-- `new` are the fragments of the absolutely positioned boxes of `bs`, with tree rank `rank` -/
def FoundAbs (rank : Nat) (bs : List InlineLevelBox) (new : List AbsFragment) : Prop :=
  (∀ a ∈ new, AbsFragment.treeRank a = rank) ∧ new.map AbsFragment.box = inlineAbsBoxes bs

theorem RunPieces.ne_nil {E : TextEnv} {st : Style} {font : Font} {a b : ℚ} {t : Text} {ps}
    (h : RunPieces E st font a b t ps) : ps ≠ [] := by
  have hw : ∀ {f : Bool} {t lines}, Wrapped (E.width font) a b f t lines → lines ≠ [] := by
    intro f t lines hw; cases hw <;> simp
  have hn : newlinePieces (splitNewlines t) ≠ [] := by
    obtain ⟨l, ls, hl⟩ := List.exists_cons_of_ne_nil (splitNewlines_ne_nil t)
    rw [hl]
    cases ls <;> simp [newlinePieces]
  revert h
  unfold RunPieces
  cases (st.val .whiteSpace : WhiteSpace) <;>
    first
    | (rintro rfl; exact hn)
    | (rintro ⟨lines, h1, rfl⟩; simpa using hw h1)

mutual

/-- the lines that an inline-level box is broken to; the first starts at `x` -/
def InlineLevelBox.linesOf (E : TextEnv) (cbis : ℚ) : InlineLevelBox → ℚ → List Line
  | .textRun st t font, x =>
    (cutRun E (st.val .whiteSpace) font cbis (cbis - x) t).map
      fun p => [Item.text st font p.1 p.2]
  | .inlineBox st first last children, x =>
    decorate st true first last
      (inlineLines E cbis children (if first then x + startSpace cbis st else x))
  | .outOfFlowAbsolutelyPositionedBox _ _, _ => [[]]
  | .outOfFlowFloatBox _ _, _ => [[]]

/-- the lines that inline-level boxes are broken to; the first starts at `x` -/
def inlineLines (E : TextEnv) (cbis : ℚ) : List InlineLevelBox → ℚ → List Line
  | [], _ => [[]]
  | b :: bs, x =>
    joinLines (b.linesOf E cbis x) (inlineLines E cbis bs (endPos E cbis x (b.linesOf E cbis x)))

end

/-- static position of an absolutely positioned box that is next on a partly filled page: the
current position on the line (the start of the line for block-level boxes), at the top of the
line -/
def Ghost.corner (E : TextEnv) (w : ℚ) (root : Font) (G : Ghost) (st : Style) : Vec2 Length :=
  ⟨match st.specifiedDisplay with
    | .generatingBox .inline _ => G.pos E w root
    | _ => 0, pageHeight E root G.done⟩

mutual

/-- the absolutely positioned boxes in an inline-level box, with their static positions, on a
partly filled page -/
def InlineLevelBox.found (E : TextEnv) (w : ℚ) (root : Font) (rank : Nat) :
    InlineLevelBox → Ghost → List AbsFragment
  | .inlineBox st first last children, G => inlineFound E w root rank children (G.start st first last children)
  | .textRun .., _ => []
  | .outOfFlowAbsolutelyPositionedBox st c, G => [layoutAbsBox st c (G.corner E w root st) rank]
  | .outOfFlowFloatBox _ _, _ => []

/-- the absolutely positioned boxes in inline-level boxes, see `InlineLevelBox.found` -/
def inlineFound (E : TextEnv) (w : ℚ) (root : Font) (rank : Nat) :
    List InlineLevelBox → Ghost → List AbsFragment
  | [], _ => []
  | b :: bs, G => b.found E w root rank (G.setRem bs) ++
      inlineFound E w root rank bs ((G.setRem bs).extend (b.linesOf E w (G.pos E w root)))

end

theorem Ghost.extend_empty (G : Ghost) : G.extend [[]] = G := by
  simp [Ghost.extend, Ghost.add]

/-- nothing is added to the lines by an empty line at the start -/
theorem joinLines_nil_left (L : List Line) (h : L ≠ []) : joinLines [[]] L = L := by
  cases L with
  | nil => exact absurd rfl h
  | cons l L => rfl

/-- The loop lays out all remaining boxes of the innermost level. -/
theorem ifcLoop_run (E : TextEnv) (cb : ContainingBlock) (align : TextAlign) (root : Font)
    (rank : Nat) : ∀ (n : Nat) (bs : List InlineLevelBox), inlineSteps bs ≤ n → inlineAbsOk bs →
    ∀ (G : Ghost) (abs : List AbsFragment) (k : Nat), G.rem = bs →
    ∃ L new, LaysOut E cb.inlineSize (G.pos E cb.inlineSize root) bs L ∧
      (FoundAbs rank bs new ∧ L = inlineLines E cb.inlineSize bs (G.pos E cb.inlineSize root) ∧
        new = inlineFound E cb.inlineSize root rank bs G) ∧
      ifcLoop E rank (inlineSteps bs + k) (build E cb align root G) abs =
        ifcLoop E rank k (build E cb align root ((G.extend L).setRem [])) (abs ++ new) := by
  intro n
  induction n with
  | zero =>
    intro bs hn hok G abs k hrem
    cases bs with
    | nil =>
      refine ⟨[[]], [], .nil, ⟨by simp [FoundAbs, inlineAbsBoxes], by simp [inlineLines], by simp [inlineFound]⟩, ?_⟩
      simp only [inlineSteps, Nat.zero_add, List.append_nil, Ghost.extend]
      congr 2
      cases G
      simp_all [Ghost.add, Ghost.setRem]
    | cons b bs => exfalso; cases b <;> simp [inlineSteps, InlineLevelBox.steps] at hn
  | succ n ih =>
    intro bs hn hok G abs k hrem
    cases bs with
    | nil =>
      refine ⟨[[]], [], .nil, ⟨by simp [FoundAbs, inlineAbsBoxes], by simp [inlineLines], by simp [inlineFound]⟩, ?_⟩
      simp only [inlineSteps, Nat.zero_add, List.append_nil, Ghost.extend]
      congr 2
      cases G
      simp_all [Ghost.add, Ghost.setRem]
    | cons b bs =>
      have hcur : (build E cb align root G).current.remaining = b :: bs := hrem
      have hset : { build E cb align root G with
          current := { (build E cb align root G).current with remaining := bs } } =
          build E cb align root (G.setRem bs) := rfl
      cases b with
      | textRun st t font =>
        obtain ⟨s', pieces, h1, h2, h3, h3'⟩ := layoutTextRun_spec E st font t
          (build E cb align root (G.setRem bs))
        have h4 := h2.build cb align root (G.setRem bs) rfl
        obtain ⟨L, new, h5, ⟨h6, h6', hn1⟩, h7⟩ := ih bs (by simp [inlineSteps, InlineLevelBox.steps] at hn; omega)
          hok.2 ((G.setRem bs).extend (pieces.map fun p => [Item.text st font p.1 p.2])) abs k
          (by simp [Ghost.setRem])
        rw [extend_pos] at h5 h6'
        have hp : pieces = cutRun E (st.val .whiteSpace) font cb.inlineSize
          (cb.inlineSize - G.pos E cb.inlineSize root) t := h3'
        refine ⟨_, new, .text h3 h5,
          ⟨⟨h6.1, by simpa [inlineAbsBoxes, InlineLevelBox.absBoxes] using h6.2⟩, ?_, ?_⟩, ?_⟩
        · rw [inlineLines, InlineLevelBox.linesOf, ← hp, h6']
          rfl
        · rw [inlineFound, InlineLevelBox.found, InlineLevelBox.linesOf, ← hp]
          exact hn1
        have hst : inlineSteps (.textRun st t font :: bs) + k = (inlineSteps bs + k) + 1 := by
          simp [inlineSteps, InlineLevelBox.steps]; omega
        rw [hst, ifcLoop, hcur]
        simp only [hset, h1, bind, Except.bind]
        rw [h4, h7, Ghost.extend_join _ _ _ (by simpa using h3.ne_nil) h5.ne_nil,
          Ghost.extend_setRem, Ghost.extend_setRem]
        rfl
      | outOfFlowAbsolutelyPositionedBox st c =>
        obtain ⟨⟨o, i, hd⟩, hok⟩ := hok
        obtain ⟨corner, hc⟩ : ∃ corner,
            (build E cb align root (G.setRem bs)).absStartCorner st = .ok corner := by
          unfold IfcState.absStartCorner
          rw [hd]
          exact ⟨_, rfl⟩
        obtain ⟨L, new, h5, ⟨h6, h6', hn1⟩, h7⟩ := ih bs (by simp [inlineSteps, InlineLevelBox.steps] at hn; omega)
          hok (G.setRem bs) (abs ++ [layoutAbsBox st c corner rank]) k rfl
        refine ⟨L, layoutAbsBox st c corner rank :: new, .abs h5, ⟨?_, ?_, ?_⟩, ?_⟩
        rotate_left
        · rw [inlineLines, InlineLevelBox.linesOf]
          refine (h6'.trans ?_).trans (joinLines_nil_left _ (h6' ▸ h5.ne_nil)).symm
          rfl
        · have hcor : corner = (G.setRem bs).corner E cb.inlineSize root st := by
            unfold IfcState.absStartCorner at hc
            rw [hd] at hc
            injection hc with hc
            rw [← hc, Ghost.corner, hd]
            cases o <;> rfl
          rw [inlineFound, InlineLevelBox.found, InlineLevelBox.linesOf, Ghost.extend_empty, ← hn1, hcor]
          rfl
        rotate_left
        · refine ⟨?_, by
            rw [List.map_cons, h6.2]
            simp [inlineAbsBoxes, InlineLevelBox.absBoxes, AbsFragment.box, layoutAbsBox]⟩
          intro a ha
          rcases List.mem_cons.1 ha with rfl | ha
          · rfl
          · exact h6.1 a ha
        · have hst : inlineSteps (.outOfFlowAbsolutelyPositionedBox st c :: bs) + k =
              (inlineSteps bs + k) + 1 := by
            simp [inlineSteps, InlineLevelBox.steps]; omega
          rw [hst, ifcLoop, hcur]
          simp only [hset, hc, bind, Except.bind]
          rw [h7, Ghost.extend_setRem]
          simp [Ghost.setRem]
      | outOfFlowFloatBox st c =>
        obtain ⟨L, new, h5, ⟨h6, h6', hn1⟩, h7⟩ := ih bs (by simp [inlineSteps, InlineLevelBox.steps] at hn; omega)
          hok.2 (G.setRem bs) abs k rfl
        refine ⟨L, new, .float h5,
          ⟨⟨h6.1, by simpa [inlineAbsBoxes, InlineLevelBox.absBoxes] using h6.2⟩, ?_, ?_⟩, ?_⟩
        · rw [inlineLines, InlineLevelBox.linesOf]
          refine (h6'.trans ?_).trans (joinLines_nil_left _ (h6' ▸ h5.ne_nil)).symm
          rfl
        · rw [inlineFound, InlineLevelBox.found, InlineLevelBox.linesOf, Ghost.extend_empty]
          exact hn1
        have hst : inlineSteps (.outOfFlowFloatBox st c :: bs) + k = (inlineSteps bs + k) + 1 := by
          simp [inlineSteps, InlineLevelBox.steps]; omega
        rw [hst, ifcLoop, hcur]
        simp only [hset]
        rw [h7, Ghost.extend_setRem]
        rfl
      | inlineBox st first last children =>
        have hn' : 2 + inlineSteps children + inlineSteps bs ≤ n + 1 := by
          simpa [inlineSteps, InlineLevelBox.steps] using hn
        obtain ⟨L1, new1, h5, ⟨h6, h6', hn1⟩, h7⟩ := ih children (by omega)
          (by have := hok.1; simpa [InlineLevelBox.absOk] using this)
          ((G.setRem bs).start st first last children) abs (inlineSteps bs + k + 1) rfl
        obtain ⟨b, g', hb1, hb2⟩ := Ghost.close_extend L1 h5.ne_nil
          ((G.setRem bs).start st first last children) st true first last G.cur bs G.stack rfl rfl
        obtain ⟨L2, new2, h8, ⟨h9, h9', hn2⟩, h10⟩ := ih bs (by omega) hok.2
          ((G.setRem bs).extend (decorate st true first last L1)) (abs ++ new1) k
          (by simp [Ghost.setRem])
        rw [extend_pos] at h8 h9'
        have hx : ((G.setRem bs).start st first last children).pos E cb.inlineSize root =
            if first then G.pos E cb.inlineSize root + startSpace cb.inlineSize st
            else G.pos E cb.inlineSize root := rfl
        rw [hx] at h5 h6'
        refine ⟨_, new1 ++ new2, .box h5 h8, ⟨?_, ?_, ?_⟩, ?_⟩
        rotate_left
        · rw [inlineLines, InlineLevelBox.linesOf, ← h6', h9']
          rfl
        · rw [inlineFound, InlineLevelBox.found, InlineLevelBox.linesOf, ← h6', hn1, hn2]
        rotate_left
        · refine ⟨?_, by
            rw [List.map_append, h6.2, h9.2]
            simp [inlineAbsBoxes, InlineLevelBox.absBoxes]⟩
          intro a ha
          rcases List.mem_append.1 ha with ha | ha
          · exact h6.1 a ha
          · exact h9.1 a ha
        · have hst : inlineSteps (.inlineBox st first last children :: bs) + k =
              (inlineSteps children + (inlineSteps bs + k + 1)) + 1 := by
            simp [inlineSteps, InlineLevelBox.steps]; omega
          rw [hst, ifcLoop, hcur]
          simp only [hset, build_startBox]
          rw [h7, ifcLoop]
          have hcur2 : (build E cb align root
            ((((G.setRem bs).start st first last children).extend L1).setRem [])).current.remaining
              = [] := rfl
          have hstk : (build E cb align root
            ((((G.setRem bs).start st first last children).extend L1).setRem [])).stack
              = boxOf E cb (ctx E cb.inlineSize root g') b :: stackOf E cb root g' := by
            show stackOf E cb root (((G.setRem bs).start st first last children).extend L1).stack = _
            rw [hb1]
            rfl
          rw [hcur2, hstk]
          simp only
          rw [build_endBox E cb align root
            ((((G.setRem bs).start st first last children).extend L1).setRem []) b g' hb1]
          have hcl : ((((G.setRem bs).start st first last children).extend L1).setRem []).close b g' =
              (((G.setRem bs).start st first last children).extend L1).close b g' := rfl
          have hmk : (Ghost.mk ((G.setRem bs).start st first last children).done G.stack G.cur bs) =
              G.setRem bs := rfl
          rw [hcl, hb2, hmk, h10, Ghost.extend_join _ _ _ (decorate_ne_nil _ _ _ _ _ h5.ne_nil) h8.ne_nil,
            Ghost.extend_setRem, Ghost.extend_setRem, List.append_assoc]
          rfl

theorem Ghost.extend_line_done (G : Ghost) (L : List Line) (hL : L ≠ []) (hs : G.stack = [])
    (hc : G.cur = []) : (G.extend L).line.done = G.done ++ L := by
  induction L generalizing G with
  | nil => exact absurd rfl hL
  | cons l L ih =>
    cases L with
    | nil => simp [Ghost.extend, Ghost.add, Ghost.line, hs, hc, closeAll]
    | cons l' L =>
      rw [Ghost.extend, ih _ (by simp)]
      · simp [Ghost.line, Ghost.add, hs, hc, closeAll]
      · simp [Ghost.line, Ghost.add, hs]
      · rfl

/-- The result of laying out an inline formatting context. -/
theorem ifcLayout_lines (E : TextEnv) (st : Style) (boxes : List InlineLevelBox)
    (cb : ContainingBlock) (rank : Nat) (abs : List AbsFragment) (h : inlineAbsOk boxes) :
    ∃ L new, LaysOut E cb.inlineSize 0 boxes L ∧
      (FoundAbs rank boxes new ∧ L = inlineLines E cb.inlineSize boxes 0 ∧
        new = inlineFound E cb.inlineSize (E.font st) rank boxes ⟨[], [], [], boxes⟩) ∧
      ifcLayout E st boxes cb rank abs =
        .ok (⟨placeLines E cb (st.val .textAlign) (E.font st) 0 L, pageHeight E (E.font st) L, .zero⟩,
          abs ++ new) := by
  have hstart : IfcState.start E st boxes cb =
      build E cb (st.val .textAlign) (E.font st) ⟨[], [], [], boxes⟩ := rfl
  obtain ⟨L, new, h1, h2, h3⟩ := ifcLoop_run E cb (st.val .textAlign) (E.font st) rank _ boxes
    le_rfl h ⟨[], [], [], boxes⟩ abs 1 rfl
  refine ⟨L, new, h1, h2, ?_⟩
  unfold ifcLayout
  rw [hstart, h3, ifcLoop]
  have hst : ∀ (L : List Line) (G : Ghost), G.stack = [] → (G.extend L).stack = [] := by
    intro L
    induction L with
    | nil => intro G hG; exact hG
    | cons l L ih =>
      intro G hG
      cases L with
      | nil => exact hG
      | cons l' L => exact ih _ (by simp [Ghost.line, Ghost.add, hG])
  have hstk : (build E cb (st.val .textAlign) (E.font st)
      (((⟨[], [], [], boxes⟩ : Ghost).extend L).setRem [])).stack = [] := by
    show stackOf E cb (E.font st) (((⟨[], [], [], boxes⟩ : Ghost).extend L).stack) = []
    rw [hst L _ rfl]
    rfl
  have hcur : (build E cb (st.val .textAlign) (E.font st)
      (((⟨[], [], [], boxes⟩ : Ghost).extend L).setRem [])).current.remaining = [] := rfl
  rw [hcur, hstk]
  simp only [build_finishLine, bind, Except.bind, pure, Except.pure]
  have hd : (((⟨[], [], [], boxes⟩ : Ghost).extend L).setRem []).line.done = L := by
    have := Ghost.extend_line_done ⟨[], [], [], boxes⟩ L h1.ne_nil rfl rfl
    exact this
  simp only [build, hd]

/-- The result of laying out an inline formatting context. -/
theorem ifcLayout_spec (E : TextEnv) (st : Style) (boxes : List InlineLevelBox)
    (cb : ContainingBlock) (rank : Nat) (abs : List AbsFragment) (h : inlineAbsOk boxes) :
    ∃ L new, LaysOut E cb.inlineSize 0 boxes L ∧ FoundAbs rank boxes new ∧
      ifcLayout E st boxes cb rank abs =
        .ok (⟨placeLines E cb (st.val .textAlign) (E.font st) 0 L, pageHeight E (E.font st) L, .zero⟩,
          abs ++ new) := by
  obtain ⟨L, new, h1, h2, h3⟩ := ifcLayout_lines E st boxes cb rank abs h
  exact ⟨L, new, h1, h2.1, h3⟩

/-! ### What comes next does not matter for positions -/

/-- forgets what follows an open box -/
def GBox.erase (b : GBox) : GBox := { b with rem := [] }

/-- forgets what is not yet laid out -/
def Ghost.erase (G : Ghost) : Ghost := ⟨G.done, G.stack.map GBox.erase, G.cur, []⟩

theorem ctx_erase (E : TextEnv) (w : ℚ) (root : Font) (g : List GBox) :
    ctx E w root (g.map GBox.erase) = ctx E w root g := by
  induction g with
  | nil => rfl
  | cons b g ih => simp [ctx, ih, GBox.erase]

theorem Ghost.pos_erase (E : TextEnv) (w : ℚ) (root : Font) (G : Ghost) :
    G.erase.pos E w root = G.pos E w root := by
  simp [Ghost.pos, Ghost.erase, ctx_erase]

theorem Ghost.corner_erase (E : TextEnv) (w : ℚ) (root : Font) (G : Ghost) (st : Style) :
    G.erase.corner E w root st = G.corner E w root st := by
  unfold Ghost.corner
  rw [Ghost.pos_erase]
  rfl

theorem closeAll_erase (g : List GBox) (items : List Item) :
    closeAll (g.map GBox.erase) items = closeAll g items := by
  induction g generalizing items with
  | nil => rfl
  | cons b g ih => simp [closeAll, ih, GBox.erase]

theorem Ghost.extend_erase (L : List Line) (G : Ghost) : (G.extend L).erase = G.erase.extend L := by
  induction L generalizing G with
  | nil => rfl
  | cons l L ih =>
    cases L with
    | nil => rfl
    | cons l' L =>
      rw [Ghost.extend, Ghost.extend, ih]
      congr 1
      simp [Ghost.line, Ghost.add, Ghost.erase, closeAll_erase, GBox.cont, GBox.erase]

end Sinab
