import Verif.Model.Style

/-!
Computed values in memory: `ComputedValues` is a struct of reference-counted structs
(`Arc`), which are shared between elements until they are written to (`Arc::make_mut`):
style/properties/macros.rs 166-234 and style/properties/mod.rs 22-30.

`Model/Style` has computed values as one function; here they are in memory.  Simplifications: a
struct has a value for every longhand, of which only those of its own fields are ever read;
where the code reads some fields of a style, all of its structs must be in memory;
reference counts do not overflow; one thread.
-/

namespace Sinab.Shared

/-- the structs of style/properties/definitions.rs 9-79 -/
inductive Group where
  | font | lineInherited | lineReset | color | textInherited | box | margin | padding | border
  | background
  deriving DecidableEq, Repr

/-- all structs -/
def Group.all : List Group :=
  [.font, .lineInherited, .lineReset, .color, .textInherited, .box, .margin, .padding, .border,
   .background]

/-- `inherited` or `reset` (style/properties/definitions.rs 9-79) -/
def Group.inherited : Group → Bool
  | .font | .lineInherited | .color | .textInherited => true
  | .lineReset | .box | .margin | .padding | .border | .background => false

/-- the struct that a longhand is in (style/properties/definitions.rs 9-79) -/
def groupOf : Longhand → Group
  | .fontSize | .fontStyle | .fontWeight | .fontFamily => .font
  | .lineHeight => .lineInherited
  | .verticalAlign => .lineReset
  | .color => .color
  | .textAlign | .whiteSpace => .textInherited
  | .position | .float | .display | .top | .left | .bottom | .right | .width | .height => .box
  | .marginTop | .marginRight | .marginBottom | .marginLeft => .margin
  | .paddingTop | .paddingRight | .paddingBottom | .paddingLeft => .padding
  | .borderTopColor | .borderRightColor | .borderBottomColor | .borderLeftColor
  | .borderTopStyle | .borderRightStyle | .borderBottomStyle | .borderLeftStyle
  | .borderTopWidth | .borderRightWidth | .borderBottomWidth | .borderLeftWidth => .border
  | .backgroundColor => .background

/-- values of a struct -/
abbrev Values := (p : Longhand) → p.Comp

/-- a struct in memory: its reference count and its values -/
structure Cell where
  strong : Nat
  val : Values

/-- memory; freed places are `none` -/
structure Heap where
  cells : List (Option Cell)

namespace Heap

/-- what is at an address -/
def cell (h : Heap) (a : Nat) : Option Cell := (h.cells[a]?).join

/-- access to a struct -/
def get (h : Heap) (a : Nat) : Except Panic Cell :=
  match h.cell a with
  | some c => .ok c
  | none => .error .useAfterFree

/-- `Arc::new` -/
def alloc (h : Heap) (v : Values) : Heap × Nat := (⟨h.cells ++ [some ⟨1, v⟩]⟩, h.cells.length)

/-- `Arc::clone` -/
def clone (h : Heap) (a : Nat) : Except Panic Heap := do
  let c ← h.get a
  return ⟨h.cells.set a (some ⟨c.strong + 1, c.val⟩)⟩

/-- the end of an `Arc` -/
def drop (h : Heap) (a : Nat) : Except Panic Heap := do
  let c ← h.get a
  if c.strong = 1 then return ⟨h.cells.set a none⟩
  else return ⟨h.cells.set a (some ⟨c.strong - 1, c.val⟩)⟩

/-- `Arc::make_mut`: the struct itself if nobody else holds it, or a new copy -/
def makeMut (h : Heap) (a : Nat) : Except Panic (Heap × Nat) := do
  let c ← h.get a
  if c.strong = 1 then return (h, a)
  else
    let (h, a') := h.alloc c.val
    let h ← h.drop a
    return (h, a')

/-- a field is assigned -/
def store (h : Heap) (a : Nat) (p : Longhand) (v : p.Comp) : Except Panic Heap := do
  let c ← h.get a
  return ⟨h.cells.set a (some ⟨c.strong, Function.update c.val p v⟩)⟩

end Heap

/-- `ComputedValues` (style/properties/macros.rs 166-171) -/
structure SharedStyle where
  ptr : Group → Nat
  specifiedDisplay : Display

/-- the values of a struct at an address -/
def Heap.val (h : Heap) (a : Nat) : Values :=
  match h.cell a with
  | some c => c.val
  | none => Longhand.initial

/-- the values of a style -/
def Heap.view (h : Heap) (s : SharedStyle) : Style :=
  ⟨fun p => h.val (s.ptr (groupOf p)) p, s.specifiedDisplay⟩

/-- the values of a style are read -/
def Heap.read (h : Heap) (s : SharedStyle) : Except Panic Style :=
  if Group.all.all fun g => (h.cell (s.ptr g)).isSome then .ok (h.view s) else .error .useAfterFree

/-- memory and the style under construction (`&mut ComputedValues`) -/
abbrev Work := Heap × SharedStyle

/-- `Arc::make_mut(&mut computed.$struct_name).$ident = …` -/
def Work.set (w : Work) (p : Longhand) (v : p.Comp) : Except Panic Work := do
  let (h, a) ← w.1.makeMut (w.2.ptr (groupOf p))
  let h ← h.store a p v
  return (h, { w.2 with ptr := Function.update w.2.ptr (groupOf p) a })

/-- `cascade_css_wide_keyword_into` (style/properties/macros.rs 37-65) -/
def cascadeCssWide (p : Longhand) (k : CssWideKeyword) (inherited : SharedStyle) (w : Work) :
    Except Panic Work := do
  let isInitial := match k with
    | .initial => true
    | .inherit => false
    | .unset => !p.inherited
  let i ← w.1.read inherited
  w.set p (if isInitial then p.initial else i.val p)

/-- `if_early_cascade_into` (style/properties/macros.rs 104-132) -/
def ifEarlyCascadeInto (inherited : SharedStyle) (w : Work) : Decl → Except Panic Work
  | .value p v => do
    let i ← w.1.read inherited
    match p.earlyFromSpecified i v with
    | some c => w.set p c
    | none => return w
  | .cssWide p k => if p.isEarly then cascadeCssWide p k inherited w else return w

/-- `if_late_cascade_into` (style/properties/macros.rs 134-162) -/
def ifLateCascadeInto (inherited : SharedStyle) (w : Work) : Decl → Except Panic Work
  | .value p v => do
    let i ← w.1.read inherited
    let t ← w.1.read w.2
    match p.fromSpecified i t v with
    | some c => w.set p c
    | none => return w
  | .cssWide p k => if !p.isEarly then cascadeCssWide p k inherited w else return w

/-- `Phase::cascade` (style/properties/mod.rs 103-105, 113-115) -/
def cascadeDecl (ph : Phase) (inherited : SharedStyle) (w : Work) (d : Decl) : Except Panic Work :=
  match ph with
  | .early => ifEarlyCascadeInto inherited w d
  | .late => ifLateCascadeInto inherited w d

/-- `DeclarationBlock::cascade` (style/declaration_block.rs 58-68) -/
def cascadeBlock (b : Block) (important : Bool) (any : PerPhase) (ph : Phase)
    (inherited : SharedStyle) (w : Work) : Except Panic Work :=
  if ph.select any then
    (b.declarations.zip b.important).foldlM
      (fun w di => if di.2 = important then cascadeDecl ph inherited w di.1 else return w) w
  else return w

/-- `MatchingDeclarations::cascade` (style/cascade.rs 78-84) -/
def cascadeMatching (m : Matching) (ph : Phase) (inherited : SharedStyle) (w : Work) :
    Except Panic Work := do
  let w ← m.ua.foldlM (fun w b => cascadeBlock b false b.anyNormal ph inherited w) w
  let w ← m.author.foldlM (fun w b => cascadeBlock b false b.anyNormal ph inherited w) w
  let w ← m.author.foldlM (fun w b => cascadeBlock b true b.anyImportant ph inherited w) w
  m.ua.foldlM (fun w b => cascadeBlock b true b.anyImportant ph inherited w) w

/-- `Display::fixup` (style/values/box_.rs 67-75) -/
def displayFixup (w : Work) : Except Panic Work := do
  let t ← w.1.read w.2
  let w : Work := (w.1, { w.2 with specifiedDisplay := t.val .display })
  if (t.val .position).isAbsolutelyPositioned || (t.val .float).isFloating then
    let display := (t.val .display).blockify
    if display ≠ t.val .display then w.set .display display else return w
  else return w

/-- `post_cascade_fixups` (style/properties/mod.rs 22-30) -/
def postCascadeFixups (w : Work) : Except Panic Work := do
  let (h, a) ← w.1.makeMut (w.2.ptr .border)
  let s := { w.2 with ptr := Function.update w.2.ptr .border a }
  let c ← h.get a
  let h ← h.store a .borderTopWidth (lineWidthFixup (c.val .borderTopWidth) (c.val .borderTopStyle))
  let c ← h.get a
  let h ← h.store a .borderLeftWidth (lineWidthFixup (c.val .borderLeftWidth) (c.val .borderLeftStyle))
  let c ← h.get a
  let h ← h.store a .borderBottomWidth
    (lineWidthFixup (c.val .borderBottomWidth) (c.val .borderBottomStyle))
  let c ← h.get a
  let h ← h.store a .borderRightWidth
    (lineWidthFixup (c.val .borderRightWidth) (c.val .borderRightStyle))
  displayFixup (h, s)

/-- `INITIAL_VALUES` is made: one struct after the other (style/properties/macros.rs 197-210) -/
def allocInitial : List Group → Heap → (Group → Nat) → Heap × (Group → Nat)
  | [], h, ptr => (h, ptr)
  | g :: gs, h, ptr =>
    let (h, a) := h.alloc Longhand.initial
    allocInitial gs h (Function.update ptr g a)

/-- memory of a program: the structs, the value of `INITIAL_VALUES` after its first use, and the
styles (`Arc<ComputedValues>`) that are held, by number; `none` after the last holder is gone -/
structure Store where
  heap : Heap
  initial : Option SharedStyle
  styles : List (Option SharedStyle)

/-- nothing is in memory -/
def Store.empty : Store := ⟨⟨[]⟩, none, []⟩

/-- the first use of `INITIAL_VALUES` (`lazy_static!`) -/
def Store.force (s : Store) : Store × SharedStyle :=
  match s.initial with
  | some i => (s, i)
  | none =>
    let (h, ptr) := allocInitial Group.all s.heap fun _ => 0
    let i : SharedStyle := ⟨ptr, Display.initial⟩
    ({ s with heap := h, initial := some i }, i)

/-- `ComputedValues::new` (style/properties/macros.rs 193-234) -/
def newStyle (s : Store) (inherited : Option SharedStyle) (matching : Option Matching) :
    Except Panic (Store × SharedStyle) := do
  let (s, initial) := s.force
  let inherited := inherited.getD initial
  let ptr g := (if Group.inherited g then inherited else initial).ptr g
  let h ← Group.all.foldlM (fun h g => h.clone (ptr g)) s.heap
  let w : Work := (h, ⟨ptr, Display.initial⟩)
  let w ← match matching with
    | some m => do
      let w ← cascadeMatching m .early inherited w
      cascadeMatching m .late inherited w
    | none => pure w
  let w ← postCascadeFixups w
  return ({ s with heap := w.1 }, w.2)

/-- what a program does with styles: one is computed, or the last holder of one ends -/
inductive Op where
  | compute (parent : Option Nat) (matching : Option Matching)
  | release (i : Nat)

/-- a style that is held -/
def Store.style (s : Store) (i : Nat) : Option SharedStyle := (s.styles[i]?).join

/-- an operation.  A style that is not held cannot be named in Rust; this is
`useAfterFree` here. -/
def Store.step (s : Store) : Op → Except Panic Store
  | .compute parent matching => do
    let p ← match parent with
      | none => pure none
      | some i => match s.style i with
        | some p => pure (some p)
        | none => .error .useAfterFree
    let (s, t) ← newStyle s p matching
    return { s with styles := s.styles ++ [some t] }
  | .release i =>
    match s.style i with
    | none => .error .useAfterFree
    | some t => do
      let h ← Group.all.foldlM (fun h g => h.drop (t.ptr g)) s.heap
      return { s with heap := h, styles := s.styles.set i none }

end Sinab.Shared
