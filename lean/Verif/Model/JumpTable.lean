import Verif.Model.Style

/-!
Enums whose methods are found by a table of functions: utils/tagged_union_with_jump_tables.rs.

Values are in memory, a function from addresses (relative to the value) to bytes.  What the
compiler does is stated here as documented for `#[repr(u8)] enum` (RFC 2195) and
`#[repr(C)] struct`: a variant is a C struct that begins with the discriminant; the fields
of a C struct are in the order of declaration, each at the next multiple of its alignment;
discriminants count from 0.  Types of fields are given by their size and alignment; values
by their bytes.  The macro's checks are functions to `Option`: `none` means that the
program does not compile.
-/

namespace Sinab.Jump

/-- bytes at addresses relative to the start of the value -/
abbrev Memory := Nat → UInt8

/-- the integer types that a discriminant may have (`@assert_ident_is_int`,
utils/tagged_union_with_jump_tables.rs 166-173) -/
inductive IntRepr where
  | u8 | u16 | u32 | u64 | i8 | i16 | i32 | i64
  deriving DecidableEq, Repr

/-- number of bytes -/
def IntRepr.size : IntRepr → Nat
  | .u8 | .i8 => 1
  | .u16 | .i16 => 2
  | .u32 | .i32 => 4
  | .u64 | .i64 => 8

/-- has it negative values? -/
def IntRepr.signed : IntRepr → Bool
  | .u8 | .u16 | .u32 | .u64 => false
  | .i8 | .i16 | .i32 | .i64 => true

/-- number of values that are not negative -/
def IntRepr.capacity (r : IntRepr) : Nat :=
  if r.signed then 256 ^ r.size / 2 else 256 ^ r.size

/-- `as usize` of the value with this bit pattern, for pointers of 64 bits -/
def IntRepr.asUsize (r : IntRepr) (bits : Nat) : Nat :=
  if r.signed && decide (256 ^ r.size / 2 ≤ bits) then 256 ^ 8 - 256 ^ r.size + bits else bits

/-- byte order of the machine -/
inductive Endian where
  | little | big
  deriving DecidableEq, Repr

/-- an unsigned number as `n` bytes, the lowest first -/
def lowFirst : Nat → Nat → List UInt8
  | 0, _ => []
  | n + 1, v => UInt8.ofNat (v % 256) :: lowFirst n (v / 256)

/-- the number with these bytes, the lowest first -/
def fromLowFirst : List UInt8 → Nat
  | [] => 0
  | b :: bs => b.toNat + 256 * fromLowFirst bs

/-- an unsigned number in memory -/
def Endian.encode : Endian → Nat → Nat → List UInt8
  | .little, n, v => lowFirst n v
  | .big, n, v => (lowFirst n v).reverse

/-- the number with this representation in memory -/
def Endian.decode : Endian → List UInt8 → Nat
  | .little, bs => fromLowFirst bs
  | .big, bs => fromLowFirst bs.reverse

/-- the type of a field: its size and alignment -/
structure FieldType where
  size : Nat
  align : Nat
  deriving DecidableEq, Repr

/-- a variant of an enum: its name and the types of its fields
(utils/tagged_union_with_jump_tables.rs 15-23) -/
structure Variant where
  name : String
  fields : List FieldType
  deriving DecidableEq, Repr

/-- an enum with `#[repr(tag)]` (utils/tagged_union_with_jump_tables.rs 31-37) -/
structure EnumDef where
  tag : IntRepr
  variants : List Variant

/-- the next multiple of an alignment -/
def roundUp (n align : Nat) : Nat := (n + align - 1) / align * align

/-- places of fields in a `#[repr(C)] struct`, if the first free byte is `start` -/
def offsets (start : Nat) : List FieldType → List Nat
  | [] => []
  | f :: fs => roundUp start f.align :: offsets (roundUp start f.align + f.size) fs

/-- `n` bytes from an address -/
def Memory.read (m : Memory) (at' n : Nat) : List UInt8 := (List.range n).map fun i => m (at' + i)

/-- bytes are stored at an address -/
def Memory.write (m : Memory) (at' : Nat) (bs : List UInt8) : Memory := fun i =>
  if at' ≤ i then bs.getD (i - at') (m i) else m i

/-- the fields of a C struct are stored -/
def storeFields (m : Memory) : List Nat → List (List UInt8) → Memory
  | o :: os, v :: vs => storeFields (m.write o v) os vs
  | _, _ => m

/-- a value of the enum is made: variant number `k` with the fields `vs`; bytes between the
fields stay what they were -/
def EnumDef.store (d : EnumDef) (en : Endian) (k : Nat) (fields : List FieldType)
    (vs : List (List UInt8)) (m : Memory) : Memory :=
  storeFields (m.write 0 (en.encode d.tag.size k)) (offsets d.tag.size fields) vs

/-- an arm of the `match` in a method: enum name, variant name, names of the fields and the
block, a function of the fields and the arguments
(utils/tagged_union_with_jump_tables.rs 59-66) -/
structure Arm (Args R : Type) where
  enumName : String
  variant : String
  fieldNames : List String
  block : List (List UInt8) → Args → R

/-- a closure of the table: the value is cast to the struct of its variant, and the fields
are bound (utils/tagged_union_with_jump_tables.rs 138-153) -/
def closure {Args R : Type} (tag : IntRepr) (v : Variant) (block : List (List UInt8) → Args → R)
    (m : Memory) (args : Args) : R :=
  block (List.zipWith (fun o (f : FieldType) => m.read o f.size) (offsets tag.size v.fields) v.fields) args

/-- `@closures_table` (utils/tagged_union_with_jump_tables.rs 106-165): one closure for each
variant, in their order; the names in the arms must be those of the enum
(`@assert_idents_equal`, 174-185), and bind all fields of the struct -/
def closuresTable {Args R : Type} (enumName : String) (tag : IntRepr) :
    List Variant → List (Arm Args R) → List (Memory → Args → R) → Option (List (Memory → Args → R))
  | v :: vs, a :: as, previous =>
    if a.enumName = enumName then
      if a.variant = v.name then
        if a.fieldNames.length = v.fields.length then
          closuresTable enumName tag vs as (previous ++ [closure tag v a.block])
        else none
      else none
    else none
  | [], [], previous => some previous
  | _, _, _ => none

/-- a method (utils/tagged_union_with_jump_tables.rs 68-90): the tag is read from the start of
the value, the closure is found in the table -/
def method {Args R : Type} (tag : IntRepr) (en : Endian) (table : List (Memory → Args → R))
    (m : Memory) (args : Args) : Except Panic R :=
  match table[tag.asUsize (en.decode (m.read 0 tag.size))]? with
  | some f => .ok (f m args)
  | none => .error .indexBounds

/-- the end of the last field -/
def endOf (start : Nat) : List FieldType → Nat
  | [] => start
  | f :: fs => endOf (roundUp start f.align + f.size) fs

/-- the alignment of an enum: the largest of its tag and fields -/
def EnumDef.align (d : EnumDef) : Nat :=
  (d.variants.flatMap fun v => v.fields.map FieldType.align).foldr max d.tag.size

/-- the size of an enum: that of its largest variant, rounded up to its alignment -/
def EnumDef.size (d : EnumDef) : Nat :=
  roundUp ((d.variants.map fun v => endOf d.tag.size v.fields).foldr max d.tag.size) d.align

/-! ## The enums of the properties -/

/-- the identifiers of the longhands, in the order of style/properties/definitions.rs 9-79 -/
def longhandNames : List (String × Longhand) :=
  [("font_size", .fontSize), ("font_style", .fontStyle), ("font_weight", .fontWeight),
   ("font_family", .fontFamily), ("line_height", .lineHeight), ("vertical_align", .verticalAlign),
   ("color", .color), ("text_align", .textAlign), ("white_space", .whiteSpace),
   ("position", .position), ("float", .float), ("display", .display), ("top", .top),
   ("left", .left), ("bottom", .bottom), ("right", .right), ("width", .width),
   ("height", .height), ("margin_top", .marginTop), ("margin_right", .marginRight),
   ("margin_bottom", .marginBottom), ("margin_left", .marginLeft), ("padding_top", .paddingTop),
   ("padding_right", .paddingRight), ("padding_bottom", .paddingBottom),
   ("padding_left", .paddingLeft), ("border_top_color", .borderTopColor),
   ("border_right_color", .borderRightColor), ("border_bottom_color", .borderBottomColor),
   ("border_left_color", .borderLeftColor), ("border_top_style", .borderTopStyle),
   ("border_right_style", .borderRightStyle), ("border_bottom_style", .borderBottomStyle),
   ("border_left_style", .borderLeftStyle), ("border_top_width", .borderTopWidth),
   ("border_right_width", .borderRightWidth), ("border_bottom_width", .borderBottomWidth),
   ("border_left_width", .borderLeftWidth), ("background_color", .backgroundColor)]

/-- `LonghandId` (style/properties/macros.rs 27-35); the discriminant type is `u8`
(style/properties/definitions.rs 7) -/
def longhandId : EnumDef := ⟨.u8, longhandNames.map fun p => ⟨p.1, []⟩⟩

/-- the `match` of `cascade_css_wide_keyword_into` (style/properties/macros.rs 37-65); the
arguments are the keyword, the values so far, and the inherited ones -/
def cssWideArms : List (Arm (CssWideKeyword × Style × Style) Style) :=
  longhandNames.map fun p => ⟨"LonghandId", p.1, [], fun _ a => p.2.cascadeCssWide a.1 a.2.1 a.2.2⟩

/-- the table of `is_early` (style/properties/macros.rs 75-79) -/
def earlyTable : List Bool :=
  [true, false, false, false, false, false, false, false, false, false, false, false,
   false, false, false, false, false, false, false, false, false, false, false, false,
   false, false, false, false, false, false, false, false, false, false, false, false,
   false, false, false]

/-- `LonghandId::is_early` (style/properties/macros.rs 74-81): the table at `self as usize` -/
def isEarlyOf (en : Endian) (m : Memory) : Except Panic Bool :=
  match earlyTable[IntRepr.u8.asUsize (en.decode (m.read 0 IntRepr.u8.size))]? with
  | some b => .ok b
  | none => .error .indexBounds

/-- `LonghandDeclaration` (style/properties/macros.rs 93-102), given the layouts of the values
and of a keyword -/
def longhandDeclaration (value : Longhand → FieldType) (keyword : FieldType) : EnumDef :=
  ⟨.u8, (longhandNames.map fun p => ⟨p.1, [value p.2]⟩) ++
    [⟨"CssWide", [⟨longhandId.size, longhandId.align⟩, keyword]⟩]⟩

end Sinab.Jump
