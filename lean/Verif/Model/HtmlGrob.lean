import Verif.Model.Render

/-! `html_grob()` and its methods (R/html_grob.R, R/grid-utils.R), with the part of grid they
use: units that are sums of npc and inches, and viewports without rotation, layout or scales. -/

namespace Sinab

/-- a grid unit: `unit(npc, "npc") + unit(inches, "inches")` -/
structure RUnit where
  npc : ℚ
  inches : ℚ
  deriving DecidableEq, Repr

/-- a location or dimension in inches, in a viewport of the given size -/
def RUnit.inch (u : RUnit) (size : ℚ) : ℚ := u.npc * size + u.inches

/-- a region of the page, in inches from the lower left corner of the page -/
structure Region where
  left : ℚ
  bottom : ℚ
  width : ℚ
  height : ℚ
  deriving DecidableEq, Repr

/-- `viewport(x, y, width, height, just = c(hjust, vjust))` of grid; by default it is as large
as the parent -/
structure Vp where
  x : RUnit
  y : RUnit
  width : RUnit := ⟨1, 0⟩
  height : RUnit := ⟨1, 0⟩
  hjust : ℚ
  vjust : ℚ
  deriving DecidableEq, Repr

/-- `pushViewport` of one viewport: the point of the viewport given by the justification is
put at `x`, `y` of the parent -/
def Region.push (r : Region) (v : Vp) : Region :=
  let w := v.width.inch r.width
  let h := v.height.inch r.height
  ⟨r.left + v.x.inch r.width - v.hjust * w, r.bottom + v.y.inch r.height - v.vjust * h, w, h⟩

/-- `pushViewport` of a `vpStack` -/
def Region.pushAll (r : Region) (vs : List Vp) : Region := vs.foldl Region.push r

/-- an argument that may be a number or a unit -/
inductive RArg where
  | number (x : ℚ)
  | unit (u : RUnit)

/-- `with_unit` (R/grid-utils.R 5-10); `default`: the meaning of a number in `default.units`;
`none` is `NULL` -/
def withUnit (x : Option RArg) (default : ℚ → RUnit) : Option RUnit :=
  x.map fun
    | .number x => default x
    | .unit u => u

/-- the fields of the object (R/html_grob.R 42-53, 73-100).  `vp = []` stands for `NULL`. -/
structure HtmlGrob where
  text : List ByteArray
  x : RUnit
  y : RUnit
  width : Option RUnit
  height : Option RUnit
  hjust : ℚ
  vjust : ℚ
  css : List ByteArray
  vp : List Vp
  widthInch : ℚ := 0
  heightInch : ℚ := 0
  children : Released := ⟨[], none⟩

/-- `html_grob` (R/html_grob.R 19-54); `text`: the character vector after `as.character` (30),
in UTF-8, `none` for `NA` -/
def htmlGrob (text : List (Option ByteArray)) (x y width height : Option RArg) (hjust vjust : ℚ)
    (css : List ByteArray) (default : ℚ → RUnit) (vp : List Vp) : HtmlGrob :=
  { text := text.map fun t => t.getD ⟨#[]⟩
    x := (withUnit x default).getD ⟨hjust, 0⟩
    y := (withUnit y default).getD ⟨vjust, 0⟩
    width := withUnit width default
    height := withUnit height default
    hjust := hjust
    vjust := vjust
    css := css
    vp := vp }

/-- `current_width` (R/grid-utils.R 15-45) with the default values of `flip`, `convert_null` -/
def currentWidth (r : Region) (vp : List Vp) (width : Option RUnit) : ℚ :=
  (width.getD ⟨1, 0⟩).inch (r.pushAll vp).width

/-- `current_height` (R/grid-utils.R 48-78) with the default values of `flip`, `convert_null` -/
def currentHeight (r : Region) (vp : List Vp) (height : Option RUnit) : ℚ :=
  (height.getD ⟨1, 0⟩).inch (r.pushAll vp).height

/-- width and height from the bounding box (R/html_grob.R 84-92) -/
def HtmlGrob.sized (g : HtmlGrob) (bbox : Option BBox) : HtmlGrob :=
  match bbox with
  | none => g
  | some b =>
    { g with
      widthInch := if g.width = none then b.xmax - b.xmin else g.widthInch
      heightInch := if g.height = none then b.ymax - b.ymin else g.heightInch }

/-- `makeContext.html_grob` (R/html_grob.R 72-101) with `render_markdown`
(R/render-markdown.R), in the region `r` of the current viewport -/
def Externals.makeContext (X : Externals) (fuel : Nat) (r : Region) (g : HtmlGrob) :
    Except Panic HtmlGrob := do
  let g := { g with widthInch := currentWidth r g.vp g.width }
  let g := { g with heightInch := currentHeight r g.vp g.height }
  let children ← X.renderMarkdown fuel g.text g.css g.widthInch g.heightInch
  let g := g.sized children.bbox
  let vp : Vp := { x := g.x, y := g.y, hjust := g.hjust, vjust := 1 - g.vjust }
  return { g with vp := g.vp ++ [vp], children := children }

/-- `widthDetails.html_grob` (R/html_grob.R 110-112), in inches -/
def HtmlGrob.widthDetails (g : HtmlGrob) : ℚ := g.widthInch

/-- `heightDetails.html_grob` (R/html_grob.R 105-107) -/
def HtmlGrob.heightDetails (g : HtmlGrob) : ℚ := g.heightInch

/-- `ascentDetails.html_grob` (R/html_grob.R 115-117) -/
def HtmlGrob.ascentDetails (g : HtmlGrob) : ℚ := g.heightInch

/-- `descentDetails.html_grob` (R/html_grob.R 120-122) -/
def HtmlGrob.descentDetails (_ : HtmlGrob) : ℚ := 0

/-- a grob with locations in inches, moved by `dx`, `dy` -/
def Grob.moved (dx dy : ℚ) : Grob → Grob
  | .text label x y hjust vjust gp => .text label (dx + x) (dy + y) hjust vjust gp
  | .rect x y width height hjust vjust gp => .rect (dx + x) (dy + y) width height hjust vjust gp
  | .lines x y gp => .lines (x.map (dx + ·)) (y.map (dy + ·)) gp

/-- `grid.draw` of the object (and `draw_html`, R/html_grob.R 62-68): `makeContext`, then the
viewport is pushed and the children are drawn in it.  Result: the grobs with their locations
on the page. -/
def Externals.gridDraw (X : Externals) (fuel : Nat) (r : Region) (g : HtmlGrob) :
    Except Panic (List Grob) := do
  let g ← X.makeContext fuel r g
  let r := r.pushAll g.vp
  return (g.children.grobs.filterMap id).map (Grob.moved r.left r.bottom)

end Sinab
