import Verif.Model.GContext

namespace Sinab

/-- What ends up in the list returned to R: a call of `textGrob`, `rectGrob` or
`linesGrob` with positions in inches (src/render_device.c 107-174). -/
inductive Grob where
  | text (label : String) (x y hjust vjust : ℚ) (gp : Gpar)
  | rect (x y width height hjust vjust : ℚ) (gp : Gpar)
  | lines (x y : List ℚ) (gp : Gpar)
  deriving DecidableEq, Repr

/-- Bounding box fields `bb_xmin, bb_ymin, bb_xmax, bb_ymax`. -/
structure BBox where
  xmin : ℚ
  ymin : ℚ
  xmax : ℚ
  ymax : ℚ
  deriving DecidableEq, Repr

/-- `RenderDevice` (src/renderer.h 19-26).  `grobs` is the R list of length
`capacity`; unset entries are `none` (R's NULL). -/
structure RDev where
  grobs : List (Option Grob)
  size : Nat
  capacity : Nat
  y0 : ℚ
  bb : BBox
  bbSet : Bool
  deriving Repr

/-- `SET_VECTOR_ELT` on an R list: error outside the bounds. -/
def setVectorElt {α : Type} (v : List (Option α)) (i : Nat) (x : Option α) :
    Except Panic (List (Option α)) :=
  if i < v.length then .ok (v.set i x) else .error .vectorBounds

/-- `VECTOR_ELT` -/
def vectorElt {α : Type} (v : List (Option α)) (i : Nat) : Except Panic (Option α) :=
  match v[i]? with
  | some x => .ok x
  | none => .error .vectorBounds

/-- `allocVector(VECSXP, n)` -/
def allocVector {α : Type} (n : Nat) : List (Option α) := List.replicate n none

/-- The copy loop `for (i = 0; i < size; i++) SET_VECTOR_ELT(new, i, VECTOR_ELT(old, i))`
(src/render_device.c 34-36 and 83-85); `todo` counts the remaining iterations. -/
def copyElts {α : Type} (old : List (Option α)) (i : Nat) :
    (todo : Nat) → List (Option α) → Except Panic (List (Option α))
  | 0, new => .ok new
  | todo + 1, new => do
    let x ← vectorElt old i
    let new ← setVectorElt new i x
    copyElts old (i + 1) todo new

/-- `rdev_new` (src/render_device.c 4-23) -/
def RDev.new (y0 : ℚ) : RDev where
  grobs := allocVector 5
  size := 0
  capacity := 5
  y0 := y0
  bb := ⟨0, 0, 0, 0⟩
  bbSet := false

/-- `rdev_grow_capacity` (src/render_device.c 73-92) -/
def RDev.grow (d : RDev) : Except Panic RDev := do
  let capNew := 2 * d.capacity
  let new ← copyElts d.grobs 0 d.size (allocVector capNew)
  return { d with grobs := new, capacity := capNew }

/-- `rdev_add_SEXP` (src/render_device.c 95-105) -/
def RDev.add (d : RDev) (g : Grob) : Except Panic RDev := do
  let d ← if d.size = d.capacity then d.grow else pure d
  let grobs ← setVectorElt d.grobs d.size (some g)
  return { d with grobs := grobs, size := d.size + 1 }

/-- `rdev_draw_text` (src/render_device.c 107-124) -/
def RDev.drawText (d : RDev) (label : String) (x y : ℚ) (gc : GCtx) : Except Panic RDev :=
  d.add (.text label x (d.y0 - y) 0 0 (gparOf gc))

/-- `rdev_draw_rect` (src/render_device.c 127-147) -/
def RDev.drawRect (d : RDev) (x y width height : ℚ) (gc : GCtx) : Except Panic RDev :=
  d.add (.rect x (d.y0 - y) width height 0 1 (gparOf gc))

/-- `rdev_draw_line` (src/render_device.c 150-174) -/
def RDev.drawLine (d : RDev) (pts : List (ℚ × ℚ)) (gc : GCtx) : Except Panic RDev :=
  d.add (.lines (pts.map (·.1)) (pts.map (fun p => d.y0 - p.2)) (gparOf gc))

/-- `rdev_record_bbox` (src/render_device.c 184-214) -/
def RDev.recordBBox (d : RDev) (xmin ymin xmax ymax : ℚ) : RDev :=
  let ymin := d.y0 - ymin
  let ymax := d.y0 - ymax
  let (xmin, xmax) := if xmin > xmax then (xmax, xmin) else (xmin, xmax)
  let (ymin, ymax) := if ymin > ymax then (ymax, ymin) else (ymin, ymax)
  if d.bbSet then
    { d with bb :=
      { xmin := if xmin < d.bb.xmin then xmin else d.bb.xmin
        ymin := if ymin < d.bb.ymin then ymin else d.bb.ymin
        xmax := if xmax > d.bb.xmax then xmax else d.bb.xmax
        ymax := if ymax > d.bb.ymax then ymax else d.bb.ymax } }
  else
    { d with bb := ⟨xmin, ymin, xmax, ymax⟩, bbSet := true }

/-- What R receives: the `gList` and its optional `bbox` attribute. -/
structure Released where
  grobs : List (Option Grob)
  bbox : Option BBox
  deriving DecidableEq, Repr

/-- `rdev_release` (src/render_device.c 26-70) -/
def RDev.release (d : RDev) : Except Panic Released := do
  let new ← copyElts d.grobs 0 d.size (allocVector d.size)
  return { grobs := new, bbox := if d.bbSet then some d.bb else none }

/-! ### Rust-side wrappers (graphics_engine/renderer.rs 261-334) -/

/-- Calls the layout engine makes on a `RenderDevice`, in px, with the font
represented by its graphics context. -/
inductive DrawCall where
  | text (label : String) (x y : Length) (font : GCtx) (color : RGBA)
  | rect (x y width height : Length) (fill : RGBA)
  | line (points : List (Length × Length)) (color : RGBA) (width : Length) (style : LineStyle)
  /-- record_bbox of a rectangle with top left corner `x, y` and size `w, h` -/
  | bbox (x y w h : Length)
  deriving DecidableEq, Repr

/-- `RenderDevice::{draw_text, draw_rect, draw_line, record_bbox}`
(graphics_engine/renderer.rs 272-332) -/
def RDev.exec (d : RDev) : DrawCall → Except Panic RDev
  | .text label x y font color => do
    let label ← cstring label
    let gc ← font.setColor color
    d.drawText label (x / 96) (y / 96) gc
  | .rect x y w h fill => do
    let gc ← GCtx.new.setColor ⟨0, 0, 0, 0⟩
    let gc ← gc.setFill fill
    d.drawRect (x / 96) (y / 96) (w / 96) (h / 96) gc
  | .line pts color width style => do
    let gc ← GCtx.new.setColor color
    let gc := (gc.setLinestyle style).setLinewidth width
    d.drawLine (pts.map (fun p => (p.1 / 96, p.2 / 96))) gc
  | .bbox x y w h =>
    let xmin := x / 96
    let ymin := y / 96
    .ok (d.recordBBox xmin ymin (xmin + w / 96) (ymin + h / 96))

def RDev.execAll (d : RDev) : List DrawCall → Except Panic RDev
  | [] => .ok d
  | c :: cs => do
    let d ← d.exec c
    d.execAll cs

end Sinab
