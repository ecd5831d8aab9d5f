import Verif.Model.Device

/-! The C code of the render device (src/render_device.c, src/r_callbacks.c) with the memory
of R: the heap of R objects, the garbage collector, the protection stack and the list of
preserved objects. -/

namespace Sinab

/-- a `SEXP`: `R_NilValue`, an object that R itself keeps alive (a symbol, a namespace, a
function of a namespace), or an object on the heap -/
inductive RVal where
  | nul
  | perm (name : String)
  | ref (r : Nat)
  deriving DecidableEq, Repr

/-- types of objects: character vector of one string (`STRSXP`), `INTSXP`, `REALSXP`,
`LANGSXP` (call) and `VECSXP` (list) under construction, finished list, the value of a
call of an R function, of which nothing is known except that it may refer to the arguments,
string (`CHARSXP`, as UTF-8), and character vector (`STRSXP`) with strings as elements.

A list is *finished* when it becomes part of another object; this is not recorded by R, it
makes the model reject programs that modify a list which is part of another object. -/
inductive RKind where
  | str (s : String)
  | int (n : Int)
  | real (xs : List ℚ)
  | lang
  | vec
  | list
  | res (fn : String)
  | chr (utf8 : List UInt8)
  | strs
  deriving DecidableEq, Repr

/-- objects of these types are not modified any more -/
def RKind.frozen : RKind → Bool
  | .lang | .vec | .strs => false
  | _ => true

/-- an R object: type, elements with their names (or tags), attributes -/
structure RObj where
  kind : RKind
  slots : List (String × RVal)
  attrs : List (String × RVal)
  deriving DecidableEq, Repr

/-- `RenderDevice` (src/renderer.h 19-26), allocated by `Calloc` -/
structure CDev where
  grobs : RVal
  size : Nat
  capacity : Nat
  y0 : ℚ
  bb : BBox
  bbSet : Bool

/-- Memory.  `objs r = none`: no object at `r` (not yet allocated, or reclaimed).
`adv n r`: at the `n`-th moment at which R may collect garbage, it reclaims the object at
`r` if that is not in use.  (R collects at most occasionally, and reclaims only part of the
garbage; any behaviour of the collector is given by some `adv`.) -/
structure RHeap where
  objs : Nat → Option RObj
  next : Nat
  stack : List RVal
  precious : List RVal
  devs : Nat → Option CDev
  nextDev : Nat
  clock : Nat
  adv : Nat → Nat → Bool

/-- objects that R knows to be in use: reachable from the roots -/
inductive Reach (objs : Nat → Option RObj) (roots : List RVal) : Nat → Prop
  | root {r} : .ref r ∈ roots → Reach objs roots r
  | step {a b o n} : Reach objs roots a → objs a = some o → (n, .ref b) ∈ o.slots ++ o.attrs →
      Reach objs roots b

/-- computations that use the memory -/
abbrev RM := StateT RHeap (Except Panic)

/-! ### The operations of R's C interface -/

namespace RM

open Classical in
/-- a moment at which R may collect garbage; `extra`: values R protects itself meanwhile -/
noncomputable def gc (extra : List RVal) : RM Unit := fun h =>
  .ok ((), { h with
    clock := h.clock + 1
    objs := fun r =>
      if h.adv h.clock r = true ∧ ¬ Reach h.objs (h.stack ++ h.precious ++ extra) r then none
      else h.objs r })

/-- failure -/
def fail {α : Type} (p : Panic) : RM α := fun _ => .error p

/-- use of an object -/
def access (v : RVal) : RM RObj := fun h =>
  match v with
  | .ref r =>
    match h.objs r with
    | some o => .ok (o, h)
    | none => .error .useAfterFree
  | _ => .error .assertion

/-- the value can be stored: it is no reclaimed object, and not under construction -/
def usable (v : RVal) : RM Unit := fun h =>
  match v with
  | .ref r =>
    match h.objs r with
    | some o => if o.kind.frozen then .ok ((), h) else .error .assertion
    | none => .error .useAfterFree
  | _ => .ok ((), h)

/-- allocation of an object (allocators protect the values they store) -/
noncomputable def alloc (kind : RKind) (slots : List (String × RVal)) : RM RVal := do
  gc (slots.map (·.2))
  fun h => .ok (.ref h.next, { h with
    objs := fun r => if r = h.next then some ⟨kind, slots, []⟩ else h.objs r
    next := h.next + 1 })

/-- replace an object -/
def put (r : Nat) (o : RObj) : RM Unit := fun h =>
  .ok ((), { h with objs := fun x => if x = r then some o else h.objs x })

/-- `PROTECT` -/
def protect (v : RVal) : RM Unit := do
  match v with
  | .ref _ => let _ ← access v
  | _ => pure ()
  fun h => .ok ((), { h with stack := v :: h.stack })

/-- `UNPROTECT`: an error if there are less entries -/
def unprotect (n : Nat) : RM Unit := fun h =>
  if n ≤ h.stack.length then .ok ((), { h with stack := h.stack.drop n }) else .error .assertion

/-- `R_PreserveObject` -/
def preserve (v : RVal) : RM Unit := do
  let _ ← access v
  fun h => .ok ((), { h with precious := v :: h.precious })

/-- `R_ReleaseObject` -/
def releaseObject (v : RVal) : RM Unit := fun h =>
  .ok ((), { h with precious := h.precious.erase v })

/-- `SET_VECTOR_ELT` and `SETCAR` of the `i`-th element of a call -/
def setElt (v : RVal) (i : Nat) (x : RVal) : RM Unit := do
  let o ← access v
  if o.kind.frozen then fail .assertion
  else
    usable x
    match v, o.slots[i]? with
    | .ref r, some (n, _) => put r { o with slots := o.slots.set i (n, x) }
    | _, _ => fail .vectorBounds

/-- `VECTOR_ELT` -/
def getElt (v : RVal) (i : Nat) : RM RVal := do
  let o ← access v
  match o.slots[i]? with
  | some (_, x) => pure x
  | none => fail .vectorBounds

/-- `SET_TAG` of the `i`-th element of a call -/
def setTag (v : RVal) (i : Nat) (n : String) : RM Unit := do
  let o ← access v
  if o.kind.frozen then fail .assertion
  else
    match v, o.slots[i]? with
    | .ref r, some (_, x) => put r { o with slots := o.slots.set i (n, x) }
    | _, _ => fail .vectorBounds

/-- a list under construction is finished -/
def finish (x : RVal) : RM Unit := do
  let a ← access x
  match x with
  | .ref q => put q { a with kind := if a.kind = .vec then .list else a.kind }
  | _ => pure ()

/-- `setAttrib`, `classgets`: may allocate (protecting its arguments).  A list that is used as
attribute counts as finished: the code does not change it any more. -/
noncomputable def setAttrib (v : RVal) (name : String) (x : RVal) : RM Unit := do
  gc [v, x]
  finish x
  let o ← access v
  if o.kind.frozen then fail .assertion
  else
    match v with
    | .ref r => put r { o with attrs := o.attrs ++ [(name, x)] }
    | _ => fail .assertion

/-- `allocVector(LANGSXP, n)`, `allocVector(VECSXP, n)` -/
noncomputable def allocVec (kind : RKind) (n : Nat) : RM RVal := alloc kind (List.replicate n ("", .nul))

/-- `mkString` -/
noncomputable def mkString (s : String) : RM RVal := alloc (.str s) []

/-- `ScalarReal` -/
noncomputable def scalarReal (x : ℚ) : RM RVal := alloc (.real [x]) []

/-- `ScalarInteger` -/
noncomputable def scalarInteger (n : Int) : RM RVal := alloc (.int n) []

/-- `install`: the symbol may have to be allocated -/
noncomputable def install (name : String) : RM RVal := do
  gc []
  pure (.perm name)

/-- `findFun(install(name), env)`: the function may have to be loaded -/
noncomputable def findFun (name : String) (_env : RVal) : RM RVal := do
  let _ ← install name
  gc []
  pure (.perm name)

/-- every value is usable -/
def usableAll : List (String × RVal) → RM Unit
  | [] => pure ()
  | a :: as => do
    usable a.2
    usableAll as

/-- `eval` of a call under protection of the caller: the arguments are evaluated (any amount
of garbage collection), the function is run (likewise; R protects the arguments).
`getNamespace` returns the namespace, all other functions a new object. -/
noncomputable def eval (call : RVal) : RM RVal := do
  let _ ← access call
  gc []
  let o ← access call
  match o.kind, o.slots with
  | .lang, (_, .perm f) :: args =>
    usableAll args
    if f = "getNamespace" then
      gc (args.map (·.2))
      pure (.perm "namespace")
    else alloc (.res f) args
  | _, _ => fail .assertion

/-- `Calloc(1, RenderDevice)` -/
def calloc : RM Nat := fun h =>
  .ok (h.nextDev, { h with
    devs := fun p => if p = h.nextDev then some ⟨.nul, 0, 0, 0, ⟨0, 0, 0, 0⟩, false⟩ else h.devs p
    nextDev := h.nextDev + 1 })

/-- `rdev->…`, read -/
def dev (p : Nat) : RM CDev := fun h =>
  match h.devs p with
  | some d => .ok (d, h)
  | none => .error .useAfterFree

/-- `rdev->… = …` -/
def setDev (p : Nat) (d : CDev) : RM Unit := do
  let _ ← dev p
  fun h => .ok ((), { h with devs := fun q => if q = p then some d else h.devs q })

/-- `Free(rdev)` -/
def free (p : Nat) : RM Unit := do
  let _ ← dev p
  fun h => .ok ((), { h with devs := fun q => if q = p then none else h.devs q })

end RM

open RM

/-! ### src/r_callbacks.c -/

/-- `get_namespace` (src/r_callbacks.c 3-12) -/
noncomputable def getNamespace (namesp : String) : RM RVal := do
  let s ← mkString namesp
  protect s
  let f ← install "getNamespace"
  let call ← alloc .lang [("", f), ("", s)]
  protect call
  let out ← eval call
  unprotect 2
  return out

/-- the repeated `s = CDR(s); SETCAR(s, x); SET_TAG(s, install(tag))` (src/r_callbacks.c
25-46, 64-89, 107-117, 198-232), starting with the `i`-th element -/
noncomputable def fillArgs (call : RVal) : (i : Nat) → List (String × RVal) → RM Unit
  | _, [] => pure ()
  | i, (tag, x) :: rest => do
    setElt call i x
    let _ ← install tag
    setTag call i tag
    fillArgs call (i + 1) rest

/-- `text_grob` (src/r_callbacks.c 15-52) -/
noncomputable def textGrob (label x y hjust vjust gp : RVal) : RM RVal := do
  let grid ← getNamespace "grid"
  protect grid
  let fn ← findFun "textGrob" grid
  protect fn
  let call ← allocVec .lang 7
  protect call
  setElt call 0 fn
  fillArgs call 1 [("label", label), ("x", x), ("y", y), ("hjust", hjust), ("vjust", vjust),
    ("gp", gp)]
  let out ← eval call
  unprotect 3
  return out

/-- `rect_grob` (src/r_callbacks.c 55-95) -/
noncomputable def rectGrob (x y width height hjust vjust gp : RVal) : RM RVal := do
  let grid ← getNamespace "grid"
  protect grid
  let fn ← findFun "rectGrob" grid
  protect fn
  let call ← allocVec .lang 8
  protect call
  setElt call 0 fn
  fillArgs call 1 [("x", x), ("y", y), ("width", width), ("height", height), ("hjust", hjust),
    ("vjust", vjust), ("gp", gp)]
  let out ← eval call
  unprotect 3
  return out

/-- `lines_grob` (src/r_callbacks.c 98-123) -/
noncomputable def linesGrob (x y gp : RVal) : RM RVal := do
  let grid ← getNamespace "grid"
  protect grid
  let fn ← findFun "linesGrob" grid
  protect fn
  let call ← allocVec .lang 4
  protect call
  setElt call 0 fn
  fillArgs call 1 [("x", x), ("y", y), ("gp", gp)]
  let out ← eval call
  unprotect 3
  return out

/-- `unit_in` (src/r_callbacks.c 127-149) -/
noncomputable def unitIn (x : RVal) : RM RVal := do
  let grid ← getNamespace "grid"
  protect grid
  let fn ← findFun "unit" grid
  protect fn
  let call ← allocVec .lang 3
  protect call
  setElt call 0 fn
  setElt call 1 x
  let unit ← mkString "inches"
  protect unit
  setElt call 2 unit
  let _ ← install "units"
  setTag call 2 "units"
  let out ← eval call
  unprotect 4
  return out

/-- the `switch` for the line type (src/r_callbacks.c 182-195) -/
noncomputable def linetypeArg (gc : GCtx) : RM RVal :=
  if gc.linetype = 2 then mkString "21"
  else if gc.linetype = 3 then mkString "11"
  else scalarInteger gc.linetype

/-- `gpar_gcontext` (src/r_callbacks.c 168-245) -/
noncomputable def gparGcontext (gc : GCtx) : RM RVal := do
  let col ← mkString gc.color
  protect col
  let fill ← mkString gc.fill
  protect fill
  let fontfamily ← mkString gc.fontfamily
  protect fontfamily
  let fontface ← scalarInteger gc.fontface
  protect fontface
  let fontsize ← scalarReal gc.fontsize
  protect fontsize
  let lineheight ← scalarReal gc.lineheight
  protect lineheight
  let linewidth ← scalarReal gc.linewidth
  protect linewidth
  let linetype ← linetypeArg gc
  protect linetype
  let lineend ← mkString "butt"
  protect lineend
  let grid ← getNamespace "grid"
  protect grid
  let fn ← findFun "gpar" grid
  protect fn
  let call ← allocVec .lang 10
  protect call
  setElt call 0 fn
  fillArgs call 1 [("col", col), ("fill", fill), ("fontfamily", fontfamily),
    ("fontface", fontface), ("fontsize", fontsize), ("lineheight", lineheight),
    ("lty", linetype), ("lwd", linewidth), ("lineend", lineend)]
  let out ← eval call
  unprotect 12
  return out

/-! ### src/render_device.c -/

/-- `rdev_new` (src/render_device.c 4-23) -/
noncomputable def rdevNew (y0 : ℚ) : RM Nat := do
  let p ← calloc
  let grobs ← allocVec .vec 5
  protect grobs
  preserve grobs
  unprotect 1
  setDev p ⟨grobs, 0, 5, y0, ⟨0, 0, 0, 0⟩, false⟩
  return p

/-- the loop that copies elements `i, …, i + n - 1` (src/render_device.c 34-36, 83-85) -/
def copyLoop (new old : RVal) : (i n : Nat) → RM Unit
  | _, 0 => pure ()
  | i, n + 1 => do
    let x ← getElt old i
    setElt new i x
    copyLoop new old (i + 1) n

/-- `rdev_grow_capacity` (src/render_device.c 73-92) -/
noncomputable def rdevGrowCapacity (p : Nat) : RM Unit := do
  let d ← dev p
  let capNew := 2 * d.capacity
  let old := d.grobs
  let new ← allocVec .vec capNew
  protect new
  copyLoop new old 0 d.size
  releaseObject old
  preserve new
  setDev p { d with grobs := new, capacity := capNew }
  unprotect 1

/-- `rdev_add_SEXP` (src/render_device.c 95-105) -/
noncomputable def rdevAddSEXP (p : Nat) (s : RVal) : RM Unit := do
  let d ← dev p
  if d.size = d.capacity then rdevGrowCapacity p
  let d ← dev p
  setElt d.grobs d.size s
  setDev p { d with size := d.size + 1 }

/-- `rdev_draw_text` (src/render_device.c 107-124) -/
noncomputable def rdevDrawText (p : Nat) (label : String) (x y : ℚ) (gc : GCtx) : RM Unit := do
  let slabel ← mkString label
  protect slabel
  let sx ← scalarReal x
  protect sx
  let sxu ← unitIn sx
  protect sxu
  let d ← dev p
  let sy ← scalarReal (d.y0 - y)
  protect sy
  let syu ← unitIn sy
  protect syu
  let hjust ← scalarReal 0
  protect hjust
  let vjust ← scalarReal 0
  protect vjust
  let gp ← gparGcontext gc
  protect gp
  let grob ← textGrob slabel sxu syu hjust vjust gp
  protect grob
  rdevAddSEXP p grob
  unprotect 9

/-- `rdev_draw_rect` (src/render_device.c 127-147) -/
noncomputable def rdevDrawRect (p : Nat) (x y width height : ℚ) (gc : GCtx) : RM Unit := do
  let sx ← scalarReal x
  protect sx
  let sxu ← unitIn sx
  protect sxu
  let d ← dev p
  let sy ← scalarReal (d.y0 - y)
  protect sy
  let syu ← unitIn sy
  protect syu
  let sw ← scalarReal width
  protect sw
  let swu ← unitIn sw
  protect swu
  let sh ← scalarReal height
  protect sh
  let shu ← unitIn sh
  protect shu
  let hjust ← scalarReal 0
  protect hjust
  let vjust ← scalarReal 1
  protect vjust
  let gp ← gparGcontext gc
  protect gp
  let grob ← rectGrob sxu syu swu shu hjust vjust gp
  protect grob
  rdevAddSEXP p grob
  unprotect 12

/-- `rdev_draw_line` (src/render_device.c 150-174).  The vectors of numbers are allocated with
their contents; the code fills them afterwards (157-163), between two allocations. -/
noncomputable def rdevDrawLine (p : Nat) (pts : List (ℚ × ℚ)) (gc : GCtx) : RM Unit := do
  let d ← dev p
  let sx ← alloc (.real (pts.map (·.1))) []
  protect sx
  let sy ← alloc (.real (pts.map fun q => d.y0 - q.2)) []
  protect sy
  let sxu ← unitIn sx
  protect sxu
  let syu ← unitIn sy
  protect syu
  let gp ← gparGcontext gc
  protect gp
  let grob ← linesGrob sxu syu gp
  protect grob
  rdevAddSEXP p grob
  unprotect 6

/-- `rdev_record_bbox` (src/render_device.c 184-214): see `RDev.recordBBox` -/
def rdevRecordBBox (p : Nat) (xmin ymin xmax ymax : ℚ) : RM Unit := do
  let d ← dev p
  let d' := RDev.recordBBox ⟨[], 0, 0, d.y0, d.bb, d.bbSet⟩ xmin ymin xmax ymax
  setDev p { d with bb := d'.bb, bbSet := d'.bbSet }

/-- the bounding box as attribute (src/render_device.c 40-57, in `rdev_release`) -/
noncomputable def attachBBox (new : RVal) (d : CDev) : RM Unit :=
  if d.bbSet then do
    let xmin ← scalarReal d.bb.xmin
    protect xmin
    let ymin ← scalarReal d.bb.ymin
    protect ymin
    let xmax ← scalarReal d.bb.xmax
    protect xmax
    let ymax ← scalarReal d.bb.ymax
    protect ymax
    let bbox ← alloc .vec [("xmin", .nul), ("ymin", .nul), ("xmax", .nul), ("ymax", .nul)]
    protect bbox
    setElt bbox 0 xmin
    setElt bbox 1 ymin
    setElt bbox 2 xmax
    setElt bbox 3 ymax
    let _ ← install "bbox"
    setAttrib new "bbox" bbox
    unprotect 5
  else pure ()

/-- `rdev_release` (src/render_device.c 26-70) -/
noncomputable def rdevRelease (p : Nat) : RM RVal := do
  let d ← dev p
  let old := d.grobs
  let new ← allocVec .vec d.size
  protect new
  copyLoop new old 0 d.size
  releaseObject old
  attachBBox new d
  let cl ← mkString "gList"
  protect cl
  setAttrib new "class" cl
  free p
  unprotect 2
  return new

/-- a call of the interface of the render device -/
inductive CCall where
  | text (label : String) (x y : ℚ) (gc : GCtx)
  | rect (x y width height : ℚ) (gc : GCtx)
  | line (pts : List (ℚ × ℚ)) (gc : GCtx)
  | bbox (xmin ymin xmax ymax : ℚ)

/-- a drawing call for the device at `p` (src/renderer.h 61-64) -/
noncomputable def CCall.perform (p : Nat) : CCall → RM Unit
  | .text label x y gc => rdevDrawText p label x y gc
  | .rect x y w h gc => rdevDrawRect p x y w h gc
  | .line pts gc => rdevDrawLine p pts gc
  | .bbox a b c d => rdevRecordBBox p a b c d

/-- drawing calls one after the other -/
noncomputable def performAll (p : Nat) : List CCall → RM Unit
  | [] => pure ()
  | c :: cs => do
    c.perform p
    performAll p cs

/-- the life of a render device as in `C_render_markdown` (src/render_markdown.c): creation,
drawing, release -/
noncomputable def deviceSession (y0 : ℚ) (cs : List CCall) : RM RVal := do
  let p ← rdevNew y0
  performAll p cs
  rdevRelease p

/-- what `RenderDevice::{draw_text, draw_rect, draw_line, record_bbox}` hand over to C
(graphics_engine/renderer.rs 272-332); compare `RDev.exec` -/
def DrawCall.ccall : DrawCall → Except Panic CCall
  | .text label x y font color => do
    let label ← cstring label
    let gc ← font.setColor color
    return .text label (x / 96) (y / 96) gc
  | .rect x y w h fill => do
    let gc ← GCtx.new.setColor ⟨0, 0, 0, 0⟩
    let gc ← gc.setFill fill
    return .rect (x / 96) (y / 96) (w / 96) (h / 96) gc
  | .line pts color width style => do
    let gc ← GCtx.new.setColor color
    let gc := (gc.setLinestyle style).setLinewidth width
    return .line (pts.map (fun p => (p.1 / 96, p.2 / 96))) gc
  | .bbox x y w h =>
    let xmin := x / 96
    let ymin := y / 96
    return .bbox xmin ymin (xmin + w / 96) (ymin + h / 96)

/-- the calls of C functions for several drawing calls -/
def ccallAll : List DrawCall → Except Panic (List CCall)
  | [] => .ok []
  | c :: cs => do
    let k ← c.ccall
    let ks ← ccallAll cs
    return k :: ks

end Sinab
