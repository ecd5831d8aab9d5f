import Verif.Model.Length

/-! `geom.rs`.  `physical::{Vec2, Rect, Sides}` are `PVec2, PRect, PSides`,
`flow_relative::{Vec2, Rect, Sides}` are `Vec2, Rect, Sides`. -/

namespace Sinab

/-- `WritingMode` (style/values/writing_modes.rs 8-14) -/
inductive WritingMode where
  | horizontalTb | verticalRl | verticalLr | sidewaysRl | sidewaysLr
  deriving DecidableEq, Repr

/-- `Direction` (style/values/writing_modes.rs 1-5) -/
inductive Direction where
  | ltr | rtl
  deriving DecidableEq, Repr

abbrev Mode := WritingMode × Direction

/-- geom.rs 7-11 -/
@[ext] structure PVec2 (α : Type) where
  x : α
  y : α
  deriving DecidableEq, Repr

/-- geom.rs 13-17 -/
@[ext] structure PRect (α : Type) where
  topLeft : PVec2 α
  size : PVec2 α
  deriving DecidableEq, Repr

/-- geom.rs 19-25 -/
@[ext] structure PSides (α : Type) where
  top : α
  left : α
  bottom : α
  right : α
  deriving DecidableEq, Repr

/-- geom.rs 33-37 -/
@[ext] structure Vec2 (α : Type) where
  inline : α
  block : α
  deriving DecidableEq, Repr

/-- geom.rs 39-43 -/
@[ext] structure Rect (α : Type) where
  startCorner : Vec2 α
  size : Vec2 α
  deriving DecidableEq, Repr

/-- geom.rs 45-51 -/
@[ext] structure Sides (α : Type) where
  inlineStart : α
  inlineEnd : α
  blockStart : α
  blockEnd : α
  deriving DecidableEq, Repr

/-- geom.rs 55-67 -/
instance {α : Type} [Add α] : Add (PVec2 α) := ⟨fun a b => ⟨a.x + b.x, a.y + b.y⟩⟩

/-- geom.rs 84-106 (`+` and `+=`) -/
instance {α : Type} [Add α] : Add (Vec2 α) :=
  ⟨fun a b => ⟨a.inline + b.inline, a.block + b.block⟩⟩

/-- geom.rs 254-268 -/
instance {α : Type} [Add α] : Add (Sides α) :=
  ⟨fun a b => ⟨a.inlineStart + b.inlineStart, a.inlineEnd + b.inlineEnd,
    a.blockStart + b.blockStart, a.blockEnd + b.blockEnd⟩⟩

/-- geom.rs 70-81 -/
def PVec2.sizeToFlowRelative {α : Type} (v : PVec2 α) (mode : Mode) : Vec2 α :=
  match mode with
  | (.horizontalTb, _) => ⟨v.x, v.y⟩
  | _ => ⟨v.y, v.x⟩

/-- geom.rs 108-115 -/
def Vec2.zero : Vec2 Length := ⟨0, 0⟩

/-- geom.rs 117-126 -/
def Sides.zero : Sides Length := ⟨0, 0, 0, 0⟩

/-- geom.rs 128-135 -/
def Rect.zero : Rect Length := ⟨Vec2.zero, Vec2.zero⟩

/-- geom.rs 138-149 -/
def Vec2.sizeToPhysical {α : Type} (v : Vec2 α) (mode : Mode) : PVec2 α :=
  match mode with
  | (.horizontalTb, _) => ⟨v.inline, v.block⟩
  | _ => ⟨v.block, v.inline⟩

/-- geom.rs 159-185 -/
def PSides.toFlowRelative {α : Type} (s : PSides α) (mode : Mode) : Sides α :=
  let b := match mode.1 with
    | .horizontalTb => (s.top, s.bottom)
    | .verticalRl | .sidewaysRl => (s.right, s.left)
    | .verticalLr | .sidewaysLr => (s.left, s.right)
  let i := match mode with
    | (.horizontalTb, .ltr) => (s.left, s.right)
    | (.horizontalTb, .rtl) => (s.right, s.left)
    | (.verticalRl, .ltr) | (.sidewaysRl, .ltr) | (.verticalLr, .ltr) | (.sidewaysLr, .rtl) =>
      (s.top, s.bottom)
    | (.verticalRl, .rtl) | (.sidewaysRl, .rtl) | (.verticalLr, .rtl) | (.sidewaysLr, .ltr) =>
      (s.bottom, s.top)
  { inlineStart := i.1, inlineEnd := i.2, blockStart := b.1, blockEnd := b.2 }

/-- geom.rs 189-196 -/
def Sides.map {α β : Type} (s : Sides α) (f : α → β) : Sides β :=
  ⟨f s.inlineStart, f s.inlineEnd, f s.blockStart, f s.blockEnd⟩

/-- geom.rs 198-209 -/
def Sides.mapInlineAndBlockAxes {α β : Type} (s : Sides α) (inlineF blockF : α → β) : Sides β :=
  ⟨inlineF s.inlineStart, inlineF s.inlineEnd, blockF s.blockStart, blockF s.blockEnd⟩

/-- geom.rs 211-216 -/
def Sides.inlineSum {α : Type} [Add α] (s : Sides α) : α := s.inlineStart + s.inlineEnd

/-- geom.rs 218-223 -/
def Sides.blockSum {α : Type} [Add α] (s : Sides α) : α := s.blockStart + s.blockEnd

/-- geom.rs 225-233 -/
def Sides.startCorner {α : Type} (s : Sides α) : Vec2 α := ⟨s.inlineStart, s.blockStart⟩

/-- geom.rs 237-239 -/
def Sides.percentagesRelativeTo (s : Sides LengthOrPercentage) (basis : Length) : Sides Length :=
  s.map (·.percentageRelativeTo basis)

/-- geom.rs 243-245 -/
def Sides.percentagesOrAutoRelativeTo (s : Sides LengthOrPercentageOrAuto) (basis : Length) :
    Sides LengthOrAuto :=
  s.map (·.percentageRelativeTo basis)

/-- geom.rs 249-251 -/
def Sides.autoIs (s : Sides LengthOrAuto) (l : Length) : Sides Length :=
  s.map (·.autoIs l)

/-- geom.rs 271-286 -/
def Rect.inflate {α : Type} [Add α] [Sub α] (r : Rect α) (sides : Sides α) : Rect α where
  startCorner := ⟨r.startCorner.inline - sides.inlineStart, r.startCorner.block - sides.blockStart⟩
  size := ⟨r.size.inline + sides.inlineSum, r.size.block + sides.blockSum⟩

/-- geom.rs 288-312; the unused `_containing_block` argument is left out. -/
def Rect.toPhysical {α : Type} (r : Rect α) (mode : Mode) : Except Panic (PRect α) :=
  match mode with
  | (.horizontalTb, .ltr) =>
    .ok { topLeft := ⟨r.startCorner.inline, r.startCorner.block⟩, size := r.size.sizeToPhysical mode }
  | _ => .error .unimplemented

/-- geom.rs 316-324 -/
def PRect.translate {α : Type} [Add α] (r : PRect α) (by' : PVec2 α) : PRect α :=
  { topLeft := r.topLeft + by', size := r.size }

/-- The part of `BoxFragment` that carries its geometry (layout/fragments.rs 19-23). -/
structure BoxGeom where
  contentRect : Rect Length
  padding : Sides Length
  border : Sides Length
  margin : Sides Length
  deriving DecidableEq, Repr

/-- layout/fragments.rs 67-70 -/
def BoxGeom.paddingRect (b : BoxGeom) : Rect Length := b.contentRect.inflate b.padding

/-- layout/fragments.rs 72-76 -/
def BoxGeom.borderRect (b : BoxGeom) : Rect Length :=
  (b.contentRect.inflate b.padding).inflate b.border

/-- layout/fragments.rs 78-83 -/
def BoxGeom.marginRect (b : BoxGeom) : Rect Length :=
  ((b.contentRect.inflate b.padding).inflate b.border).inflate b.margin

end Sinab
