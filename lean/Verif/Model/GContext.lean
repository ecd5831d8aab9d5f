import Verif.Model.Color

namespace Sinab

/-- `FontStyle` (src/sinab/src/style/values/fonts.rs 25-30) -/
inductive FontStyle | normal | italic | oblique
  deriving DecidableEq, Repr

/-- `FontWeight` (src/sinab/src/style/values/fonts.rs 32-36) -/
inductive FontWeight | normal | bold
  deriving DecidableEq, Repr

/-- `LineStyle` (src/sinab/src/style/values/border.rs 7-12) -/
inductive LineStyle | none | solid | dashed | dotted
  deriving DecidableEq, Repr

/-- `GContext` (src/renderer.h 35-51).  The character buffers are kept as the
strings they hold; their capacity is checked by `strcpy`. -/
structure GCtx where
  color : String
  fill : String
  fontfamily : String
  fontface : Int
  fontsize : ℚ
  lineheight : ℚ
  linetype : Int
  linewidth : ℚ
  deriving DecidableEq, Repr

/-- `STRING_BUFFER_SIZE` (src/renderer.h 33) -/
def stringBufferSize : Nat := 201

/-- `strcpy(gc->buf, s)` (src/gcontext.c 56-74): copies the bytes of `s` and a
terminating NUL to a buffer of `stringBufferSize` bytes. -/
def strcpy (s : String) : Except Panic String :=
  if s.utf8ByteSize + 1 ≤ stringBufferSize then .ok s else .error .bufferOverflow

/-- `CString::new(s).unwrap()` (graphics_engine/renderer.rs 85, 89, 93) -/
def cstring (s : String) : Except Panic String :=
  if s.toList.contains '\x00' then .error .interiorNul else .ok s

/-- `gcontext_new` (src/gcontext.c 9-25) -/
def GCtx.new : GCtx where
  color := "black"
  fill := "black"
  fontfamily := ""
  fontface := 1
  fontsize := 12
  lineheight := 6/5
  linetype := 1
  linewidth := 1

/-- `gcontext_clone` (src/gcontext.c 28-44): copies field by field. -/
def GCtx.clone (s : GCtx) : GCtx where
  color := s.color
  fill := s.fill
  fontfamily := s.fontfamily
  fontface := s.fontface
  fontsize := s.fontsize
  lineheight := s.lineheight
  linetype := s.linetype
  linewidth := s.linewidth

/-- `GContextImpl::set_color` (graphics_engine/renderer.rs 84-87; gcontext.c 56-58) -/
def GCtx.setColor (gc : GCtx) (c : RGBA) : Except Panic GCtx := do
  let s ← cstring c.toStr
  let s ← strcpy s
  return { gc with color := s }

/-- `GContextImpl::set_fill` (renderer.rs 88-91; gcontext.c 64-66) -/
def GCtx.setFill (gc : GCtx) (c : RGBA) : Except Panic GCtx := do
  let s ← cstring c.toStr
  let s ← strcpy s
  return { gc with fill := s }

/-- `GContextImpl::set_fontfamily` (renderer.rs 92-95; gcontext.c 72-74) -/
def GCtx.setFontfamily (gc : GCtx) (name : String) : Except Panic GCtx := do
  let s ← cstring name
  let s ← strcpy s
  return { gc with fontfamily := s }

/-- `Fontface` (renderer.rs 50-55) -/
inductive Fontface | plain | bold | italics | boldItalics
  deriving DecidableEq, Repr

/-- `GContextImpl::set_fontface` (renderer.rs 96-104) -/
def GCtx.setFontface (gc : GCtx) (f : Fontface) : GCtx :=
  { gc with fontface := match f with
      | .plain => 1
      | .bold => 2
      | .italics => 3
      | .boldItalics => 4 }

/-- `GContextImpl::get_fontface` (renderer.rs 172-184) -/
def GCtx.getFontface (gc : GCtx) : Fontface :=
  if gc.fontface = 1 then .plain
  else if gc.fontface = 2 then .bold
  else if gc.fontface = 3 then .italics
  else if gc.fontface = 4 then .boldItalics
  else .plain

/-- `GContextImpl::set_fontstyle` (renderer.rs 106-115) -/
def GCtx.setFontstyle (gc : GCtx) (s : FontStyle) : GCtx :=
  match s with
  | .italic | .oblique =>
    match gc.getFontface with
    | .plain => gc.setFontface .italics
    | .bold => gc.setFontface .boldItalics
    | _ => gc
  | _ => gc

/-- `GContextImpl::set_fontweight` (renderer.rs 117-126) -/
def GCtx.setFontweight (gc : GCtx) (w : FontWeight) : GCtx :=
  match w with
  | .bold =>
    match gc.getFontface with
    | .plain => gc.setFontface .bold
    | .italics => gc.setFontface .boldItalics
    | _ => gc
  | _ => gc

/-- `GContextImpl::set_fontsize` (renderer.rs 129-132): px to points. -/
def GCtx.setFontsize (gc : GCtx) (px : Length) : GCtx :=
  { gc with fontsize := px * 72 / 96 }

/-- `GContextImpl::get_fontsize` (renderer.rs 186-192): points to px. -/
def GCtx.getFontsize (gc : GCtx) : Length := gc.fontsize * 96 / 72

/-- `GContextImpl::set_linestyle` (renderer.rs 135-143) -/
def GCtx.setLinestyle (gc : GCtx) (s : LineStyle) : GCtx :=
  { gc with linetype := match s with
      | .none => 0
      | .solid => 1
      | .dashed => 2
      | .dotted => 3 }

/-- `GContextImpl::set_linewidth` (renderer.rs 145-149) -/
def GCtx.setLinewidth (gc : GCtx) (w : Length) : GCtx :=
  { gc with linewidth := w }

/-- R's `lty` argument: an integer code or a dash pattern string. -/
inductive Lty | code (n : Int) | pattern (s : String)
  deriving DecidableEq, Repr

/-- The arguments given to `grid::gpar` (src/r_callbacks.c 168-245). -/
structure Gpar where
  col : String
  fill : String
  fontfamily : String
  fontface : Int
  fontsize : ℚ
  lineheight : ℚ
  lty : Lty
  lwd : ℚ
  lineend : String
  deriving DecidableEq, Repr

/-- `gpar_gcontext` (src/r_callbacks.c 168-245) -/
def gparOf (gc : GCtx) : Gpar where
  col := gc.color
  fill := gc.fill
  fontfamily := gc.fontfamily
  fontface := gc.fontface
  fontsize := gc.fontsize
  lineheight := gc.lineheight
  lty := if gc.linetype = 2 then .pattern "21"
         else if gc.linetype = 3 then .pattern "11"
         else .code gc.linetype
  lwd := gc.linewidth
  lineend := "butt"

/-- The part of `FontImpl::new` that builds the graphics context
(graphics_engine/font.rs 59-64). -/
def fontGCtx (name : String) (style : FontStyle) (weight : FontWeight) (size : Length) :
    Except Panic GCtx := do
  let gc ← GCtx.new.setFontfamily name
  return ((gc.setFontstyle style).setFontweight weight).setFontsize size

/-! ### Reference-counted handles with copy on write -/

/-- Heap of `Rc<GContextImpl>` cells (renderer.rs 215-246).
`cells a = some (n, v)` is an allocated cell with strong count `n`; `env` maps
the live `GContext` handles (Rust variables/fields, named by numbers) to cells. -/
structure RcHeap (V : Type) where
  cells : Nat → Option (Nat × V)
  next : Nat
  env : List (Nat × Nat)

/-- Operations on handles. -/
inductive HOp (V : Type) where
  /-- `let h = GContext::new()` followed by initialisation to value `v` (renderer.rs 219-221) -/
  | new (h : Nat) (v : V)
  /-- `let dst = src.clone()` (renderer.rs 228-232) -/
  | clone (src dst : Nat)
  /-- `let dst = src.new_from()` (renderer.rs 223-225): deep copy -/
  | newFrom (src dst : Nat)
  /-- `drop(h)` (Rc drop; renderer.rs 209-213 when the count reaches zero) -/
  | drop (h : Nat)
  /-- a setter call through `DerefMut` (renderer.rs 242-246): `Rc::make_mut` then `f` -/
  | modify (h : Nat) (f : V → V)

namespace RcHeap
variable {V : Type}

def empty : RcHeap V := ⟨fun _ => none, 0, []⟩

/-- address of a live handle; the Rust compiler only accepts live handles -/
def addr (s : RcHeap V) (h : Nat) : Except Panic Nat :=
  match s.env.lookup h with
  | some a => .ok a
  | none => .error .useAfterFree

/-- contents of a cell -/
def cell (s : RcHeap V) (a : Nat) : Except Panic (Nat × V) :=
  match s.cells a with
  | some c => .ok c
  | none => .error .useAfterFree

/-- `Deref` (renderer.rs 234-240) -/
def read (s : RcHeap V) (h : Nat) : Except Panic V := do
  let a ← s.addr h
  let c ← s.cell a
  return c.2

def setCell (s : RcHeap V) (a : Nat) (c : Option (Nat × V)) : RcHeap V :=
  { s with cells := fun x => if x = a then c else s.cells x }

def bind (s : RcHeap V) (h a : Nat) : RcHeap V := { s with env := (h, a) :: s.env }

def unbind (s : RcHeap V) (h : Nat) : RcHeap V :=
  { s with env := s.env.filter (fun p => p.1 ≠ h) }

/-- allocate a cell with strong count 1 (`Rc::new`) -/
def alloc (s : RcHeap V) (v : V) : RcHeap V × Nat :=
  ({ s.setCell s.next (some (1, v)) with next := s.next + 1 }, s.next)

/-- decrement the strong count, freeing the cell at zero -/
def release (s : RcHeap V) (a : Nat) : Except Panic (RcHeap V) := do
  let c ← s.cell a
  if c.1 ≤ 1 then return s.setCell a none else return s.setCell a (some (c.1 - 1, c.2))

/-- One operation.  `Rc::clone` increments the count, `Rc::drop` decrements it
and frees at zero, `Rc::make_mut` mutates in place if the count is one and
otherwise clones the contents to a new cell and releases the old one. -/
def step (s : RcHeap V) : HOp V → Except Panic (RcHeap V)
  | .new h v =>
    let (s', a) := s.alloc v
    .ok (s'.bind h a)
  | .clone src dst => do
    let a ← s.addr src
    let c ← s.cell a
    return (s.setCell a (some (c.1 + 1, c.2))).bind dst a
  | .newFrom src dst => do
    let a ← s.addr src
    let c ← s.cell a
    let (s', b) := s.alloc c.2
    return s'.bind dst b
  | .drop h => do
    let a ← s.addr h
    (s.unbind h).release a
  | .modify h f => do
    let a ← s.addr h
    let c ← s.cell a
    if c.1 = 1 then
      return s.setCell a (some (1, f c.2))
    else
      let (s', b) := s.alloc c.2
      let s' ← s'.release a
      return ((s'.unbind h).bind h b).setCell b (some (1, f c.2))

def run (s : RcHeap V) : List (HOp V) → Except Panic (RcHeap V)
  | [] => .ok s
  | op :: ops => do
    let s' ← s.step op
    run s' ops

end RcHeap

end Sinab
