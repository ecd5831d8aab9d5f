import Verif.Model.Device
import Verif.Model.Block

/-! `paint.rs`.

The render device is represented by the calls made on it, see `DrawCall`; `RDev.perform`
executes them on the device of `Model/Device.lean`. -/

namespace Sinab

/-- What painting does: the calls on the render device in order, and the panic that ended
it, if any. -/
structure Trace where
  calls : List DrawCall
  panic : Option Panic
  deriving DecidableEq, Repr

namespace Trace

/-- nothing -/
def done : Trace := ⟨[], none⟩

/-- one call -/
def call (c : DrawCall) : Trace := ⟨[c], none⟩

/-- `a; b` -/
def andThen (a b : Trace) : Trace :=
  match a.panic with
  | none => ⟨a.calls ++ b.calls, b.panic⟩
  | some _ => a

/-- a computation without calls, followed by `k` -/
def after {α : Type} (e : Except Panic α) (k : α → Trace) : Trace :=
  match e with
  | .ok a => k a
  | .error p => ⟨[], some p⟩

end Trace

/-- `rdev.record_bbox(&rect)` (paint.rs 46, 59, 105) -/
def recordBox (r : PRect Length) : Trace := .call (.bbox r.topLeft.x r.topLeft.y r.size.x r.size.y)

/-- the background (paint.rs 107-117) -/
def paintBackground (style : Style) (border : PRect Length) : Trace :=
  let color := style.toRgba (style.val .backgroundColor)
  if color.a > 0 then
    .call (.rect border.topLeft.x border.topLeft.y border.size.x border.size.y color)
  else .done

/-- the top border (paint.rs 122, 128-143) -/
def paintTop (style : Style) (border padding : PRect Length) : Trace :=
  let width := padding.topLeft.y - border.topLeft.y
  if width > 0 ∧ style.val .borderTopStyle ≠ LineStyle.none then
    let p1 : PVec2 Length := ⟨border.topLeft.x, border.topLeft.y + width / 2⟩
    let p2 : PVec2 Length := ⟨p1.x + border.size.x, p1.y⟩
    .call (.line [(p1.x, p1.y), (p2.x, p2.y)] (style.toRgba (style.val .borderTopColor)) width
      (style.val .borderTopStyle))
  else .done

/-- the right border (paint.rs 123-124, 145-159) -/
def paintRight (style : Style) (border padding : PRect Length) : Trace :=
  let width := border.topLeft.x + border.size.x - padding.topLeft.x - padding.size.x
  if width > 0 ∧ style.val .borderRightStyle ≠ LineStyle.none then
    let p1 : PVec2 Length := ⟨border.topLeft.x + (border.size.x - width / 2), border.topLeft.y⟩
    let p2 : PVec2 Length := ⟨p1.x, p1.y + border.size.y⟩
    .call (.line [(p1.x, p1.y), (p2.x, p2.y)] (style.toRgba (style.val .borderRightColor)) width
      (style.val .borderRightStyle))
  else .done

/-- the bottom border (paint.rs 125-126, 161-175) -/
def paintBottom (style : Style) (border padding : PRect Length) : Trace :=
  let width := border.topLeft.y + border.size.y - padding.topLeft.y - padding.size.y
  if width > 0 ∧ style.val .borderBottomStyle ≠ LineStyle.none then
    let p1 : PVec2 Length := ⟨border.topLeft.x, border.topLeft.y + (border.size.y - width / 2)⟩
    let p2 : PVec2 Length := ⟨p1.x + border.size.x, p1.y⟩
    .call (.line [(p2.x, p2.y), (p1.x, p1.y)] (style.toRgba (style.val .borderBottomColor)) width
      (style.val .borderBottomStyle))
  else .done

/-- the left border (paint.rs 127, 177-191) -/
def paintLeft (style : Style) (border padding : PRect Length) : Trace :=
  let width := padding.topLeft.x - border.topLeft.x
  if width > 0 ∧ style.val .borderLeftStyle ≠ LineStyle.none then
    let p1 : PVec2 Length := ⟨border.topLeft.x + width / 2, border.topLeft.y⟩
    let p2 : PVec2 Length := ⟨p1.x, p1.y + border.size.y⟩
    .call (.line [(p2.x, p2.y), (p1.x, p1.y)] (style.toRgba (style.val .borderLeftColor)) width
      (style.val .borderLeftStyle))
  else .done

/-- `to_physical(mode, containing_block).translate(&containing_block.top_left)` -/
def Rect.onPage (r : Rect Length) (mode : Mode) (cb : PRect Length) : Except Panic (PRect Length) :=
  (r.toPhysical mode).map (·.translate cb.topLeft)

mutual

/-- `Fragment::paint_onto` (paint.rs 34-75), `BoxFragment::paint_onto` (paint.rs 78-198) -/
def Fragment.paintOnto (cb : PRect Length) : Fragment → Trace
  | .box style g _ children =>
    .after (g.marginRect.onPage style.writingMode cb) fun marginRect =>
    .after (g.borderRect.onPage style.writingMode cb) fun borderRect =>
    .after (g.paddingRect.onPage style.writingMode cb) fun paddingRect =>
    .after (g.contentRect.onPage style.writingMode cb) fun contentRect =>
      (recordBox marginRect).andThen <|
      (paintBackground style borderRect).andThen <|
      (paintTop style borderRect paddingRect).andThen <|
      (paintRight style borderRect paddingRect).andThen <|
      (paintBottom style borderRect paddingRect).andThen <|
      (paintLeft style borderRect paddingRect).andThen <|
      paintAll contentRect children
  | .anonymous rect children mode =>
    .after (rect.onPage mode cb) fun rect => (recordBox rect).andThen (paintAll rect children)
  | .text parentStyle contentRect text =>
    .after (contentRect.onPage parentStyle.writingMode cb) fun rect =>
      (recordBox rect).andThen <|
      .call (.text (String.ofList text.glyphs) rect.topLeft.x (rect.topLeft.y + text.font.ascent)
        text.font.gc (parentStyle.val .color))

/-- the loops of paint.rs 28-30, 48-50 and 194-196 -/
def paintAll (cb : PRect Length) : List Fragment → Trace
  | [] => .done
  | f :: fs => (f.paintOnto cb).andThen (paintAll cb fs)

end

/-- `Document::paint_onto` (paint.rs 11-31) after `layout` -/
def paintPage (pageSize : PVec2 Length) (fragments : List Fragment) : Trace :=
  paintAll ⟨⟨0, 0⟩, pageSize⟩ fragments

/-- The calls of a trace on a device: the device afterwards, and the panic that ended it, if
any.  A call that panics (text with a NUL character, graphics_engine/renderer.rs 273) does
so before it changes the device. -/
def RDev.perform (d : RDev) : List DrawCall → Option Panic → RDev × Option Panic
  | [], p => (d, p)
  | c :: cs, p =>
    match d.exec c with
    | .ok d => d.perform cs p
    | .error q => (d, some q)

end Sinab
