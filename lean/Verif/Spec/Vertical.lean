import Verif.Spec.Block
import Verif.Spec.Relative

/-!
Vertical positions of blocks after CSS 2.1, 8.3.1 ("Collapsing margins") and 10.6.3: what
one meets on the way down a page are margins and things that keep margins apart (paddings and
borders, lines, heights).  Margins that nothing keeps apart adjoin: together they take the largest
of the positive ones plus the most negative one.
-/

namespace Sinab.Vertical

/-- what one meets on the way down: a margin, or something of height `d` that keeps margins
apart -/
inductive Item where
  | margin (m : Length)
  | gap (d : Length)
  deriving DecidableEq, Repr

/-- a margin, not a gap -/
def Item.isMargin : Item → Bool
  | .margin _ => true
  | .gap _ => false

/-- the way down so far: the end of the last gap, and the margins met since -/
structure State where
  pos : Length
  pend : List Length
  deriving DecidableEq, Repr

/-- one item further down -/
def State.step (s : State) : Item → State
  | .margin m => ⟨s.pos, s.pend ++ [m]⟩
  | .gap d => ⟨s.pos + jointMargin s.pend + d, []⟩

/-- further down -/
def State.run (s : State) (l : List Item) : State := l.foldl State.step s

/-- the margins before the first gap -/
def leading : List Item → List Length
  | .margin m :: l => m :: leading l
  | _ => []

/-- A block (`mt`, `mb`: margins; `pt`, `pb`: padding and border above and below; `height`: the
given height; `root`: it establishes a formatting context; `dy`: shift by relative positioning;
`lines`: the height of the lines of text, if it contains text; `kids`: the blocks it
contains, if not), or a box that is not in the flow. -/
inductive VBox where
  | out
  | block (mt mb pt pb dy : Length) (height : Option Length) (root : Bool) (lines : Option Length)
      (kids : List VBox)

/-- a gap if there is something -/
def gapUnless (none? : Bool) (d : Length) : List Item := if none? then [] else [.gap d]

mutual

/-- What one meets in a block.  `css`: a block with a given height of 0 and nothing in it lets margins
adjoin (CSS 2.1: 'height' is "0 or auto"); otherwise a given height keeps margins apart. -/
def VBox.items (css : Bool) : VBox → List Item
  | .out => []
  | .block mt mb pt pb _ height root lines kids =>
    let above := !root && pt == 0
    let below := !root && pb == 0
    let content := match lines with
      | some l => [.gap l]
      | none => itemsOf css kids
    let body := match height with
      | none => content ++ gapUnless below pb
      | some h =>
        if css && h == 0 && above && below && lines.isNone && (itemsOf css kids).all Item.isMargin then
          itemsOf css kids
        else (if above then (leading content).map .margin else []) ++ .gap h :: gapUnless below pb
    .margin mt :: (gapUnless above pt ++ body ++ [.margin mb])

/-- what one meets in blocks, one after the other -/
def itemsOf (css : Bool) : List VBox → List Item
  | [] => []
  | v :: vs => v.items css ++ itemsOf css vs

end

/-- all margins in it adjoin -/
def VBox.through (css : Bool) (v : VBox) : Bool := (v.items css).all Item.isMargin

/-- where the upper border edge of a block is: after the margins that adjoin its upper margin.  For a block
that lets margins adjoin, as if it had a border below: without its lower margin. -/
def VBox.top (css : Bool) (s : State) (v : VBox) : Length :=
  s.pos + jointMargin (s.pend ++ leading (v.items css).dropLast)

mutual

/-- upper and lower border edges of a block, and of those in it; `y` is its upper edge before it is
shifted -/
def VBox.edges (css : Bool) (s : State) (y : Length) : VBox → List (Length × Length)
  | .out => []
  | .block mt mb pt pb dy height root lines kids =>
    let above := !root && pt == 0
    let v := VBox.block mt mb pt pb dy height root lines kids
    ((y, if v.through css then y else (s.run (v.items css)).pos) ::
      edgesOf css (s.run (.margin mt :: gapUnless above pt)) (if above then some y else none) kids).map
      fun e => (e.1 + dy, e.2 + dy)

/-- The edges of blocks one after the other.  `parent` is the upper edge of the block that contains them,
if their margins adjoin its upper margin: then that is where a block is that lets margins
adjoin. -/
def edgesOf (css : Bool) (s : State) (parent : Option Length) : List VBox → List (Length × Length)
  | [] => []
  | v :: vs =>
    let y := if v.through css then parent.getD (v.top css s) else v.top css s
    v.edges css s y ++ edgesOf css (s.run (v.items css)) (if v.through css then parent else none) vs

end

mutual

/-- neither it nor a block in it has a given height of 0 -/
def VBox.noZero : VBox → Prop
  | .out => True
  | .block _ _ _ _ _ height _ _ kids => height ≠ some 0 ∧ noZeroIn kids

/-- none of them has a given height of 0 -/
def noZeroIn : List VBox → Prop
  | [] => True
  | v :: vs => v.noZero ∧ noZeroIn vs

end

/-! ## Pages that have been laid out -/

/-- upper border edge and height of the border box, in a box whose contents start at `y` -/
def edgesAt (y : Length) (g : BoxGeom) : Length × Length :=
  (y + g.borderRect.startCorner.block, y + g.borderRect.startCorner.block + g.borderRect.size.block)

mutual

/-- upper and lower edges of a block in the flow and of those in it; `y` is where the contents
of the block around it start -/
def drawnEdges (y : Length) : BlockLevelBox → Fragment → List (Length × Length)
  | .sameFormattingContextBlock _ c, .box _ g _ fs =>
    edgesAt y g :: drawnIn (y + g.contentRect.startCorner.block) c fs
  | .independent _ (.mk c _), .box _ g _ fs =>
    edgesAt y g :: drawnIn (y + g.contentRect.startCorner.block) c fs
  | _, _ => []

/-- the edges of the blocks in a block -/
def drawnIn (y : Length) : BlockContainer → List Fragment → List (Length × Length)
  | .blockLevelBoxes bs, fs => drawnOf y bs fs
  | .inlineFormattingContext _ _, _ => []

/-- the edges of blocks one after the other -/
def drawnOf (y : Length) : List BlockLevelBox → List Fragment → List (Length × Length)
  | b :: bs, f :: fs => drawnEdges y b f ++ drawnOf y bs fs
  | _, _ => []

end

/-- a given length -/
def given : LengthOrAuto → Option Length
  | .length l => some l
  | .auto => none

/-- the height that is given, in a block of height `h` -/
def heightIn (h : LengthOrAuto) (style : Style) : LengthOrAuto := usedHeight style ⟨0, h, (.horizontalTb, .ltr)⟩

/-- a margin in a block of width `w`; `auto` is 0 -/
def marginIn (w : Length) (m : LengthOrPercentageOrAuto) : Length :=
  match m with
  | .length l => l
  | .percentage p => w * p
  | .auto => 0

/-- padding or border in a block of width `w` -/
def spaceIn (w : Length) (p : LengthOrPercentage) : Length :=
  match p with
  | .length l => l
  | .percentage p => w * p

/-- the width in a block of width `w` (CSS 2.1, 10.3.3) -/
def widthIn (w : Length) (style : Style) : Length :=
  match style.val .width with
  | .length l => l
  | .percentage p => w * p
  | .auto => w - (marginIn w (style.val .marginLeft) + marginIn w (style.val .marginRight) +
      spaceIn w (style.val .paddingLeft) + spaceIn w (style.val .paddingRight) +
      spaceIn w (style.val .borderLeftWidth) + spaceIn w (style.val .borderRightWidth))

/-- a block in a block of width `w` and height `h` -/
def blockIn (w : Length) (h : LengthOrAuto) (style : Style) (root : Bool) (lines : Option Length) (kids : List VBox) :
    VBox :=
  .block (marginIn w (style.val .marginTop)) (marginIn w (style.val .marginBottom))
    (spaceIn w (style.val .paddingTop) + spaceIn w (style.val .borderTopWidth))
    (spaceIn w (style.val .paddingBottom) + spaceIn w (style.val .borderBottomWidth))
    (relativeShift style (widthIn w style) ((heightIn h style).autoIs 0)).block
    (given (heightIn h style)) root lines kids

mutual

/-- A block in the flow in a block of width `w` and height `h`.  Only the height of its lines is
taken from its fragment; all else is computed from the styles. -/
def vertical (w : Length) (h : LengthOrAuto) : BlockLevelBox → Fragment → VBox
  | .sameFormattingContextBlock style c, .box _ g _ fs => verticalIn w h style false g c fs
  | .independent style (.mk c _), .box _ g _ fs => verticalIn w h style true g c fs
  | _, _ => .out

/-- a block with its contents -/
def verticalIn (w : Length) (h : LengthOrAuto) (style : Style) (root : Bool) (g : BoxGeom) :
    BlockContainer → List Fragment → VBox
  | .blockLevelBoxes bs, fs =>
    blockIn w h style root none (verticals (widthIn w style) (heightIn h style) bs fs)
  | .inlineFormattingContext _ _, _ => blockIn w h style root (some g.contentRect.size.block) []

/-- blocks one after the other -/
def verticals (w : Length) (h : LengthOrAuto) : List BlockLevelBox → List Fragment → List VBox
  | b :: bs, f :: fs => vertical w h b f :: verticals w h bs fs
  | _, _ => []

end

end Sinab.Vertical
